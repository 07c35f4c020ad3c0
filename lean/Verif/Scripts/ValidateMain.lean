import Verif.Scripts.ValidateExamples
/-
C121: the exit status of `xigt validate`, /repo/xigt/scripts/xigt_validate.py:418-437.

Simplification: of the command line only the options `-v` and `-q` (in the given order) and the files are modelled;
`--color` does not matter here.  An exception that is not caught ends the program with status 1, as Python does; if
no file is given argparse ends it with status 2.
-/

set_option linter.unusedSectionVars false

namespace Xigt.Vld

/-- the options that set the verbosity (xigt_validate.py:423-428) -/
inductive Flag where
  | verbose
  | quiet
  deriving DecidableEq

/-- xigt_validate.py:423-428: `-v` counts up from 2, `-q` sets 0; argparse goes through the options in order -/
def verbosity (fs : List Flag) : Nat :=
  fs.foldl (fun n f => match f with
    | .verbose => n + 1
    | .quiet => 0) 2

/-- xigt_validate.py:431-432, 408: the level of the root logger.  Levels of 0 and below do not differ here since those
of the records are above 0. -/
def logLevel (fs : List Flag) : Nat := 60 - verbosity fs * 10

section
variable [Uni]

/-- xigt_validate.py:418-437 `main`: the exit status -/
def exitStatus (fs : List Flag) (depth : Nat) (files : List (Py Opened)) : Nat :=
  if files.isEmpty then 2
  else match run (logLevel fs) depth files with
    | .ok true => 0
    | .ok false => 1
    | .error _ => 1


/-! ### Levels of records -/

/-- all records of a report and below are of level ERROR at most -/
inductive AtMostError : Report → Prop
  | empty : AtMostError .empty
  | node {rs cs} : (∀ x ∈ rs, x.level ≤ ERROR) → (∀ c ∈ cs, AtMostError c) → AtMostError (.node rs cs)

theorem AtMostError.records {r : Report} (h : AtMostError r) : ∀ x ∈ r.records, x.level ≤ ERROR := by
  cases h with
  | empty => intro x hx; cases hx
  | node h1 _ => exact h1

theorem AtMostError.children {r : Report} (h : AtMostError r) : ∀ c ∈ r.children, AtMostError c := by
  cases h with
  | empty => intro x hx; cases hx
  | node _ h2 => exact h2

theorem AtMostError.reported {r : Report} {p x} (h : AtMostError r) (hr : Reported r p x) : x.level ≤ ERROR := by
  induction p generalizing r with
  | nil =>
    obtain ⟨s, h1, h2⟩ := hr
    cases h1
    exact h.records x h2
  | cons i p ih =>
    obtain ⟨s, h1, h2⟩ := hr
    rw [Report.sub] at h1
    cases hc : r.children[i]? with
    | none => rw [hc] at h1; cases h1
    | some c =>
      rw [hc] at h1
      exact ih (h.children c (List.mem_of_getElem? hc)) ⟨s, h1, h2⟩

theorem cond_level {lvl r a} (hl : lvl ≤ ERROR) (h : cond lvl r = .ok a) : ∀ x ∈ a, x.level ≤ ERROR := by
  obtain ⟨o, _, h2⟩ := cond_ok h
  intro x hx
  obtain ⟨m, _, rfl⟩ := (h2 x).1 hx
  exact hl

theorem conds_level {l rs} (hl : ∀ r ∈ l, ∀ a, r = .ok a → ∀ x ∈ a, x.level ≤ ERROR) (h : conds l = .ok rs) :
    ∀ x ∈ rs, x.level ≤ ERROR := by
  intro x hx
  obtain ⟨r, hr, a, ha, hxa⟩ := (conds_mem h x).1 hx
  exact hl r hr a ha x hxa

theorem item_level {depth : Nat} {igt tier item : Obj} {rs} (h : validateItem depth igt tier item = .ok rs) :
    ∀ x ∈ rs, x.level ≤ ERROR := by
  refine conds_level ?_ h
  intro r hr a ha
  simp only [List.mem_cons, List.mem_flatMap, List.not_mem_nil, or_false] at hr
  rcases hr with rfl | ⟨ra, _, rfl | rfl | rfl⟩ <;> exact cond_level (by decide) ha

theorem items_level {depth : Nat} {igt tier : Obj} : ∀ {xs : List Obj} {seen l}, validateItems depth igt tier xs seen = .ok l →
    ∀ c ∈ l, AtMostError c := by
  intro xs
  induction xs with
  | nil => intro seen l h; simp only [validateItems] at h; cases h; simp
  | cons x xs ih =>
    intro seen l h
    simp only [validateItems, bind, Except.bind] at h
    split at h
    · cases h
    rename_i rs h1
    split at h
    · cases h
    rename_i us h2
    split at h
    · cases h
    rename_i l' h3
    cases h
    intro c hc
    rcases List.mem_cons.1 hc with rfl | hc
    · refine .node ?_ (by simp)
      intro y hy
      rcases List.mem_append.1 hy with hy | hy
      · exact item_level h1 y hy
      · exact cond_level (by decide) h2 y hy
    · exact ih h3 c hc

theorem tier_level {depth : Nat} {igt tier : Obj} {r} (h : validateTier depth igt tier = .ok r) : AtMostError r := by
  simp only [validateTier, bind, Except.bind] at h
  split at h
  · cases h
  rename_i rs h1
  split at h
  · cases h
  rename_i cs h2
  cases h
  refine .node (conds_level ?_ h1) (items_level h2)
  intro r hr a ha
  simp only [List.mem_append, List.mem_cons, List.mem_map, List.not_mem_nil, or_false] at hr
  rcases hr with (rfl | rfl | rfl) | ⟨ra, _, rfl⟩ <;> exact cond_level (by decide) ha

theorem extend_level {us r} (hu : ∀ x ∈ us, x.level ≤ ERROR) (h : AtMostError r) : AtMostError (extend us r) := by
  cases h with
  | empty => exact .empty
  | node h1 h2 =>
    refine .node ?_ h2
    intro x hx
    rcases List.mem_append.1 hx with hx | hx
    · exact h1 x hx
    · exact hu x hx

theorem igtItems_level : ∀ {xs : List (Obj × Report)} {seen p}, igtItems xs seen = .ok p → (∀ q ∈ xs, AtMostError q.2) →
    ∀ c ∈ p.1, AtMostError c := by
  intro xs
  induction xs with
  | nil => intro seen p h _; simp only [igtItems] at h; cases h; simp
  | cons q xs ih =>
    obtain ⟨x, r⟩ := q
    intro seen p h hx
    simp only [igtItems, bind, Except.bind] at h
    split at h
    · cases h
    rename_i us h1
    split at h
    · cases h
    rename_i p' h2
    cases h
    intro c hc
    rcases List.mem_cons.1 hc with rfl | hc
    · exact extend_level (cond_level (by decide) h1) (hx (x, r) (by simp))
    · exact ih h2 (fun q hq => hx q (by simp [hq])) c hc

theorem tiers_level {depth : Nat} {igt : Obj} : ∀ {ts : List Obj} {tseen iseen l}, validateTiers depth igt ts tseen iseen = .ok l →
    ∀ c ∈ l, AtMostError c := by
  intro ts
  induction ts with
  | nil => intro tseen iseen l h; simp only [validateTiers] at h; cases h; simp
  | cons t ts ih =>
    intro tseen iseen l h
    simp only [validateTiers, bind, Except.bind] at h
    split at h
    · cases h
    rename_i r h1
    split at h
    · cases h
    rename_i us h2
    split at h
    · cases h
    rename_i p h3
    split at h
    · cases h
    rename_i l' h4
    cases h
    intro c hc
    rcases List.mem_cons.1 hc with rfl | hc
    · refine .node ?_ (igtItems_level h3 fun q hq => (tier_level h1).children _ (List.of_mem_zip hq).2)
      intro y hy
      rcases List.mem_append.1 hy with hy | hy
      · exact (tier_level h1).records y hy
      · exact cond_level (by decide) h2 y hy
    · exact ih h4 c hc

theorem igt_level {depth : Nat} {igt : Obj} {r} (h : validateIgt depth igt = .ok r) : AtMostError r := by
  simp only [validateIgt, bind, Except.bind] at h
  split at h
  · cases h
  rename_i rs h1
  split at h
  · cases h
  rename_i cs h2
  cases h
  refine .node (conds_level ?_ h1) (tiers_level h2)
  intro r hr a ha
  simp only [List.mem_singleton] at hr
  subst hr
  exact cond_level (by decide) ha

theorem igts_level {depth : Nat} : ∀ {xs : List (Py Obj)} {seen l}, validateIgts depth xs seen = .ok l → ∀ c ∈ l, AtMostError c := by
  intro xs
  induction xs with
  | nil => intro seen l h; simp only [validateIgts] at h; cases h; simp
  | cons x xs ih =>
    intro seen l h
    simp only [validateIgts, bind, Except.bind] at h
    split at h
    · cases h
    rename_i g hg
    split at h
    · cases h
    rename_i r h1
    split at h
    · cases h
    rename_i us h2
    split at h
    · cases h
    rename_i l' h3
    cases h
    intro c hc
    rcases List.mem_cons.1 hc with rfl | hc
    · exact extend_level (cond_level (by decide) h2) (igt_level h1)
    · exact ih h3 c hc

theorem corpus_level {depth : Nat} {seen : List Str} {xc : Opened} {r} (h : validateCorpus depth seen xc = .ok r) : AtMostError r := by
  simp only [validateCorpus, bind, Except.bind] at h
  split at h
  · cases h
  rename_i rs h1
  split at h
  · cases h
  rename_i cs h2
  cases h
  refine .node (conds_level ?_ h1) (igts_level h2)
  intro r hr a ha
  simp only [List.mem_cons, List.not_mem_nil, or_false] at hr
  rcases hr with rfl | rfl <;> exact cond_level (by decide) ha

theorem reports_level {depth : Nat} {seen : List Str} {fs : List (Py Opened)} {rs} (h : Reports depth seen fs rs) :
    ∀ r ∈ rs, AtMostError r := by
  induction h with
  | nil => simp
  | skip _ ih => exact ih
  | take h1 _ ih =>
    intro r hr
    rcases List.mem_cons.1 hr with rfl | hr
    · exact corpus_level h1
    · exact ih r hr

/-! ### C121 -/

theorem verbosity_append (a b : List Flag) : verbosity (a ++ b) = b.foldl (fun n f => match f with
    | .verbose => n + 1
    | .quiet => 0) (verbosity a) := by
  rw [verbosity, List.foldl_append]; rfl

theorem count_verbose (m n : Nat) : (List.replicate n Flag.verbose).foldl (fun n f => match f with
    | .verbose => n + 1
    | .quiet => 0) m = m + n := by
  induction n generalizing m with
  | zero => rfl
  | succ n ih => rw [List.replicate_succ, List.foldl_cons, ih]; dsimp only; omega

/-- C121: the level for `-v` given n times, and for `-v` given n times after the last `-q` -/
theorem C121_levels (n : Nat) (fs : List Flag) :
    logLevel (List.replicate n .verbose) = 40 - n * 10 ∧
    logLevel (fs ++ .quiet :: List.replicate n .verbose) = 60 - n * 10 := by
  refine ⟨?_, ?_⟩
  · rw [logLevel, verbosity, count_verbose]; omega
  · rw [logLevel, verbosity_append, List.foldl_cons, count_verbose]; dsimp only; omega

/-- C121: the exit status is 0 exactly if all files (at least one) can be checked or cannot be parsed from the start,
and nothing of the level set by the options or above is found in any of them; otherwise it is 1, or 2 without files. -/
theorem C121_status (fs : List Flag) (depth : Nat) (files : List (Py Opened)) :
    (exitStatus fs depth files = 0 ↔ files ≠ [] ∧ ∃ rs, Reports depth [] files rs ∧
      ∀ r ∈ rs, ∀ p x, Reported r p x → x.level < logLevel fs) ∧
    (exitStatus fs depth files = 2 ↔ files = []) ∧ exitStatus fs depth files ≤ 2 := by
  have key : run (logLevel fs) depth files = .ok true ↔ ∃ rs, Reports depth [] files rs ∧
      ∀ r ∈ rs, ∀ p x, Reported r p x → x.level < logLevel fs := by
    rw [C52_run]
    constructor
    · rintro ⟨rs, h1, h2⟩
      refine ⟨rs, h1, fun r hr p x hx => ?_⟩
      rcases Nat.lt_or_ge x.level (logLevel fs) with h | h
      · exact h
      · exact absurd (problem_iff.2 ⟨p, x, hx, h⟩) (h2.1 rfl r hr)
    · rintro ⟨rs, h1, h2⟩
      refine ⟨rs, h1, ⟨fun _ r hr hp => ?_, fun _ => rfl⟩⟩
      obtain ⟨p, x, hx, h⟩ := problem_iff.1 hp
      exact absurd (h2 r hr p x hx) (by omega)
  cases files with
  | nil => simp [exitStatus]
  | cons f fl =>
    simp only [exitStatus, List.isEmpty_cons, Bool.false_eq_true, if_false, ne_eq, reduceCtorEq, not_false_eq_true, true_and, iff_false]
    rw [← key]
    split <;> rename_i h <;> simp [h]

/-- C121 as the option `-q` makes it: whatever is wrong with the files, the status is 0 if they can be read. -/
theorem C121_quiet (fs : List Flag) (n : Nat) (hn : n ≤ 1) (depth : Nat) (files : List (Py Opened)) (h0 : files ≠ []) {rs}
    (h : Reports depth [] files rs) : exitStatus (fs ++ .quiet :: List.replicate n .verbose) depth files = 0 := by
  refine (C121_status _ depth files).1.2 ⟨h0, rs, h, fun r hr p x hx => ?_⟩
  have := (reports_level h r hr).reported hx
  rw [(C121_levels n fs).2]
  simp only [ERROR] at this
  omega

/-- the IDs of the corpora before -/
theorem reports_get {depth : Nat} : ∀ {cs : List (Obj × List Obj)} {seen rs},
    Reports depth seen (cs.map fun c => .ok ⟨c.1, c.2.map .ok⟩) rs → rs.length = cs.length ∧
    ∀ k c, cs[k]? = some c → ∃ r, rs[k]? = some r ∧
      validateCorpus depth (seen ++ ((cs.take k).filterMap (·.1.data.id))) ⟨c.1, c.2.map .ok⟩ = .ok r := by
  intro cs
  induction cs with
  | nil => intro seen rs h; cases h; exact ⟨rfl, by simp⟩
  | cons c cs ih =>
    intro seen rs h
    cases h with
    | take h1 h2 =>
      obtain ⟨h3, h4⟩ := ih h2
      refine ⟨by simp [h3], ?_⟩
      intro k d hk
      cases k with
      | zero =>
        simp only [List.getElem?_cons_zero, Option.some.injEq] at hk
        subst hk
        exact ⟨_, rfl, by simpa using h1⟩
      | succ k =>
        obtain ⟨r, h5, h6⟩ := h4 k d hk
        refine ⟨r, h5, ?_⟩
        rw [List.take_succ_cons]
        cases hi : c.1.data.id with
        | none => simpa [hi] using h6
        | some s => simpa [hi] using h6

/-- C121 without options, for files that can be read to the end: the status is 0 exactly if no error is found in any
of them (references are by ID; `Finding` is the list of what is an error in C54). -/
theorem C121_partial (depth : Nat) (cs : List (Obj × List Obj)) (h0 : cs ≠ []) {rs}
    (h : Reports depth [] (cs.map fun c => .ok ⟨c.1, c.2.map .ok⟩) rs) (hp : ∀ c ∈ cs, ∀ g ∈ c.2, PlainRefs g) :
    exitStatus [] depth (cs.map fun c => .ok ⟨c.1, c.2.map .ok⟩) = 0 ↔
      ∀ k c, cs[k]? = some c → ∀ p m, ¬ Finding ((cs.take k).filterMap (·.1.data.id)) c.1 c.2 p ERROR m := by
  obtain ⟨hlen, hget⟩ := reports_get h
  simp only [List.nil_append] at hget
  have h40 : logLevel [] = ERROR := rfl
  have key : exitStatus [] depth (cs.map fun c => .ok ⟨c.1, c.2.map .ok⟩) = 0 ↔ ∀ r ∈ rs, ¬ Problem ERROR r := by
    rw [(C121_status [] depth _).1, h40]
    constructor
    · rintro ⟨_, rs', h1, h2⟩ r hr hpr
      obtain ⟨p, x, hx, hl⟩ := problem_iff.1 hpr
      have e1 := reports_runFiles (lvl := ERROR) h
      have := (C52_run ERROR depth _ true).2 ⟨rs', h1, by
        simp only [true_iff]
        intro r hr hp
        obtain ⟨p, x, hx, hl⟩ := problem_iff.1 hp
        exact absurd (h2 r hr p x hx) (by omega)⟩
      have hb := (C52_run ERROR depth _ (decide (∀ r ∈ rs, isEmpty none (filterEmpty ERROR r) = true))).2 ⟨rs, h, by
        simp only [decide_eq_true_eq, C52_filter]⟩
      rw [this] at hb
      have hb := (Except.ok.inj hb).symm
      rw [decide_eq_true_eq] at hb
      exact (C52_filter ERROR r).1 (hb r hr) hpr
    · intro hn
      refine ⟨by simpa using h0, rs, h, fun r hr p x hx => ?_⟩
      rcases Nat.lt_or_ge x.level ERROR with h | h
      · exact h
      · exact absurd (problem_iff.2 ⟨p, x, hx, h⟩) (hn r hr)
  rw [key]
  constructor
  · intro hn k c hk
    obtain ⟨r, hr, hv⟩ := hget k c hk
    exact (C52_errors depth _ _ r hv c.2 rfl (hp c (List.mem_of_getElem? hk))).1
      ((C52_filter ERROR r).2 (hn r (List.mem_of_getElem? hr)))
  · intro hn r hr
    obtain ⟨k, hk⟩ := List.getElem?_of_mem hr
    have hl : k < cs.length := by
      have := (List.getElem?_eq_some_iff.1 hk).1
      omega
    have hc := List.getElem?_eq_getElem hl
    obtain ⟨r', hr', hv⟩ := hget k _ hc
    rw [hk] at hr'
    cases hr'
    exact (C52_filter ERROR r).1 ((C52_errors depth _ _ r hv _ rfl (hp _ (List.mem_of_getElem? hc))).2 (hn k _ hc))

end

/-! ### Cases -/

section
attribute [local instance] asciiUni

/-- an igt in which an item refers to one that does not exist -/
def vBad : Py Opened := .ok ⟨vCorpus, [.ok (vWith (lit! "w1,w3"))]⟩
/-- one in which only a span overlaps -/
def vWarn : Py Opened := .ok ⟨vCorpus, [.ok (vWith (lit! "w1+w1"))]⟩

/-- the hypotheses of C121_partial and C121_quiet are met: two corpora with the same ID, which is an error -/
example : ∃ rs, Reports 9 [] ([(vCorpus, [vWith (lit! "w1")]), (vCorpus, [])].map fun c => .ok ⟨c.1, c.2.map .ok⟩) rs ∧
    (∀ c ∈ [(vCorpus, [vWith (lit! "w1")]), (vCorpus, [])], ∀ g ∈ c.2, PlainRefs g) ∧
    Finding [lit! "c"] vCorpus [] [] ERROR .notUnique := by
  have h1 : verdict (run ERROR 9 ([(vCorpus, [vWith (lit! "w1")]), (vCorpus, [])].map fun c => .ok ⟨c.1, c.2.map .ok⟩)) =
      some false := by decide +kernel
  generalize hf : ([(vCorpus, [vWith (lit! "w1")]), (vCorpus, [])].map fun c => (.ok ⟨c.1, c.2.map .ok⟩ : Py Opened)) = f at *
  cases h : run ERROR 9 f with
  | error e => rw [h] at h1; cases h1
  | ok b =>
    obtain ⟨rs, h2, _⟩ := (C52_run _ _ _ _).1 h
    refine ⟨rs, h2, ?_, .corpusDup rfl (by decide) (by decide)⟩
    intro c hc g hg
    simp only [List.mem_cons, List.not_mem_nil, or_false] at hc
    rcases hc with rfl | rfl
    · simp only [List.mem_singleton] at hg
      subst hg
      exact vWith_plain _
    · cases hg

/-- C121 fails: the same files give different exit statuses for different verbosities. With `-q` an error is not counted,
with `-v` a warning is; and a file that cannot be parsed is passed over in silence. -/
theorem C121_refuted :
    (∃ r, validateCorpus 9 [] ⟨vCorpus, [.ok (vWith (lit! "w1,w3"))]⟩ = .ok r ∧ Problem ERROR r) ∧
    exitStatus [] 9 [vBad] = 1 ∧ exitStatus [.quiet] 9 [vBad] = 0 ∧ exitStatus [.quiet, .verbose] 9 [vBad] = 0 ∧
    exitStatus [] 9 [vWarn] = 0 ∧ exitStatus [.verbose] 9 [vWarn] = 1 ∧
    exitStatus [] 9 [.error .parseError] = 0 := by
  refine ⟨?_, by decide +kernel, by decide +kernel, by decide +kernel, by decide +kernel, by decide +kernel, by decide +kernel⟩
  have h1 : verdict (run ERROR 9 [vBad]) = some false := by decide +kernel
  have h2 : run ERROR 9 [vBad] = .ok false := by
    cases h : run ERROR 9 [vBad] with
    | ok b => rw [h] at h1; cases h1; rfl
    | error e => rw [h] at h1; cases h1
  obtain ⟨rs, h3, h4⟩ := (C52_run _ _ _ _).1 h2
  cases h3 with
  | take h5 h6 =>
    cases h6
    refine ⟨_, h5, ?_⟩
    simpa using h4

end
end Xigt.Vld
