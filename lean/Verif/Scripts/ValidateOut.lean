import Verif.Scripts.ValidateMain
import Verif.Scripts.ValidateColor
/-
C161: the standard output of `xigt validate`, /repo/xigt/scripts/xigt_validate.py:389-416: headings of elements and notes on files that cannot be
read.  (Messages go to the log, C87 and C88.)

Simplification: a report has no index and no ID (xigt_validate.py:52-53); both are taken from the corpus by the position of the report in the
tree of reports.  Printing does not fail.
-/

set_option linter.unusedSectionVars false

namespace Xigt.Vld

/-- the element at a position below another -/
def elemAt : Obj → List Nat → Option Obj
  | x, [] => some x
  | x, i :: p => match x.kids[i]? with
    | some y => elemAt y p
    | none => none

/-- xigt_validate.py:53: the ID in the report at a position -/
def idAt (xc : Opened) : List Nat → Option Str
  | [] => xc.corpus.data.id
  | i :: p => match xc.igts[i]? with
    | some (.ok x) => (elemAt x p).bind fun y => y.data.id
    | _ => none

/-- xigt_validate.py:53, 404, 70, 96, 137: the index in the report at a position of the `k`-th file -/
def indexAt (k : Nat) (p : List Nat) : Nat := p.getLast?.getD k

/-- xigt_validate.py:337: the headings among what is printed, up to one that has no text -/
def outHeadings (color : Bool) (k : Nat) (xc : Opened) : List Line → List Str × Option PyErr
  | [] => ([], none)
  | .message _ _ :: ls => outHeadings color k xc ls
  | .heading p :: ls => match headingText color p.length (indexAt k p) (idAt xc p) with
    | .error e => ([], some e)
    | .ok t =>
      let r := outHeadings color k xc ls
      (t :: r.1, r.2)

/-- xigt_validate.py:398-401 -/
def notLoaded (k : Nat) (f : Str) : Str :=
  lit! "Corpus " ++ natStr k ++ lit! " (" ++ f ++ lit! ") failed to load. First verify that the XML file is valid by doing a schema validation."

section
variable [Uni]

/-- xigt_validate.py:393-415: what is printed from the `k`-th file on, and which files passed or the exception it ends with -/
def outFiles (color : Bool) (lvl depth : Nat) : Nat → List (Str × Py Opened) → List Str → List Str × Py (List Bool)
  | _, [], _ => ([], .ok [])
  | k, (f, .error e) :: fs, seen =>
    if e = .parseError then
      let r := outFiles color lvl depth (k + 1) fs seen
      (notLoaded k f :: r.1, r.2)
    else ([], .error e)
  | k, (_, .ok xc) :: fs, seen => match validateCorpus depth seen xc with
    | .error e => ([], .error e)
    | .ok r => match outHeadings color k xc (printed lvl r) with
      | (ls, some e) => (ls, .error e)
      | (ls, none) =>
        let q := outFiles color lvl depth (k + 1) fs (addId seen xc.corpus)
        (ls ++ q.1, q.2.map fun bs => isEmpty none (filterEmpty lvl r) :: bs)

/-- xigt_validate.py:389-416, 430-437: what the program prints on the standard output -/
def stdout (color : Bool) (fs : List Flag) (depth : Nat) (files : List (Str × Py Opened)) : List Str :=
  (outFiles color (logLevel fs) depth 0 files []).1

/-! ### The headings of a file -/

/-- the positions of headings -/
def headingsOf : List Line → List (List Nat)
  | [] => []
  | .heading p :: ls => p :: headingsOf ls
  | .message _ _ :: ls => headingsOf ls

omit [Uni] in
theorem headingsOf_append (a b : List Line) : headingsOf (a ++ b) = headingsOf a ++ headingsOf b := by
  induction a with
  | nil => rfl
  | cons l a ih => cases l <;> simp [headingsOf, ih]

omit [Uni] in
theorem mem_headingsOf {ls : List Line} {p : List Nat} : p ∈ headingsOf ls ↔ .heading p ∈ ls := by
  induction ls with
  | nil => simp [headingsOf]
  | cons l ls ih => cases l <;> simp [headingsOf, ih]

omit [Uni] in
theorem headingsOf_messages (p : List Nat) (rs : List Rec) : headingsOf (rs.map (.message p)) = [] := by
  induction rs with
  | nil => rfl
  | cons r rs ih => simpa [headingsOf] using ih

/-- something of the level or above was found at the position or below (spec) -/
def FoundAt (lvl : Nat) (r : Report) (p : List Nat) : Prop := ∃ q x, Reported r (p ++ q) x ∧ lvl ≤ x.level

omit [Uni] in
theorem sub_append : ∀ (p q : List Nat) (r : Report), r.sub (p ++ q) = (r.sub p).bind fun s => s.sub q := by
  intro p
  induction p with
  | nil => intro q r; rfl
  | cons i p ih =>
    intro q r
    rw [List.cons_append, Report.sub, Report.sub]
    cases r.children[i]? with
    | none => rfl
    | some c => exact ih q c

theorem foundAt_iff {lvl : Nat} {r : Report} {p : List Nat} : FoundAt lvl r p ↔ ∃ s, r.sub p = some s ∧ Problem lvl s := by
  constructor
  · rintro ⟨q, x, ⟨t, h1, h2⟩, h3⟩
    rw [sub_append] at h1
    cases hs : r.sub p with
    | none => rw [hs] at h1; cases h1
    | some s => rw [hs] at h1; exact ⟨s, rfl, problem_iff.2 ⟨q, x, ⟨t, h1, h2⟩, h3⟩⟩
  · rintro ⟨s, h1, h2⟩
    obtain ⟨q, x, ⟨t, h3, h4⟩, h5⟩ := problem_iff.1 h2
    exact ⟨q, x, ⟨t, by rw [sub_append, h1]; exact h3, h4⟩, h5⟩

omit [Uni] in
theorem blocks_headings {lvl : Nat} {r : Report} : ∀ {ps : List (List Nat)} {bs : List (List Line)}, All2 (Block lvl r) ps bs →
    (headingsOf bs.flatten).Sublist ps := by
  intro ps bs h
  induction h with
  | nil => exact .slnil
  | cons h _ ih =>
    rw [List.flatten_cons, headingsOf_append]
    obtain ⟨s, _, h | h⟩ := h
    · rw [h.2]; exact ih.cons _
    · rw [h.2, headingsOf, headingsOf_messages]; exact ih.cons_cons _

/-- the headings are in the order of the document, one for each element in or below which something was found -/
theorem headings_spec (lvl : Nat) (r : Report) : (headingsOf (printed lvl r)).Pairwise Before ∧
    ∀ p, p ∈ headingsOf (printed lvl r) ↔ FoundAt lvl r p := by
  obtain ⟨bs, h1, h2⟩ := C87_printed lvl r
  refine ⟨?_, fun p => ?_⟩
  · rw [h2]; exact (positions_sorted r).sublist (blocks_headings h1)
  · rw [mem_headingsOf, h2, List.mem_flatten, foundAt_iff]
    constructor
    · rintro ⟨b, hb, hm⟩
      obtain ⟨q, _, s, hs, hb' | hb'⟩ := h1.mem_right b hb
      · rw [hb'.2] at hm; cases hm
      · rw [hb'.2] at hm
        simp only [List.mem_cons, Line.heading.injEq, List.mem_map, reduceCtorEq, and_false, exists_false, or_false] at hm
        rw [hm]
        exact ⟨s, hs, hb'.1⟩
    · rintro ⟨s, hs, hp⟩
      obtain ⟨b, hb, s', hs', hb'⟩ := h1.mem_left p ((mem_positions r p).2 (by rw [hs]; rfl))
      rw [hs] at hs'
      cases hs'
      rcases hb' with hb' | hb'
      · exact absurd hp hb'.1
      · exact ⟨b, hb, by rw [hb'.2]; simp⟩

/-- the heading of the element at a position -/
def Heading (color : Bool) (k : Nat) (xc : Opened) (p : List Nat) (t : Str) : Prop :=
  headingText color p.length (indexAt k p) (idAt xc p) = .ok t

theorem outHeadings_ok (color : Bool) (k : Nat) (xc : Opened) : ∀ ls : List Line,
    (∀ p, .heading p ∈ ls → ∃ t, Heading color k xc p t) →
    ∃ ts, outHeadings color k xc ls = (ts, none) ∧ All2 (Heading color k xc) (headingsOf ls) ts := by
  intro ls
  induction ls with
  | nil => intro _; exact ⟨[], rfl, .nil⟩
  | cons l ls ih =>
    intro h
    obtain ⟨ts, h1, h2⟩ := ih fun p hp => h p (by simp [hp])
    cases l with
    | message p x => exact ⟨ts, h1, h2⟩
    | heading p =>
      obtain ⟨t, ht⟩ := h p (by simp)
      have ht' := ht
      unfold Heading at ht'
      exact ⟨t :: ts, by simp only [outHeadings, ht', h1], .cons ht h2⟩

theorem file_out (color : Bool) (lvl depth k : Nat) (seen : List Str) (xc : Opened) (r : Report) (h : validateCorpus depth seen xc = .ok r) :
    ∃ ts, outHeadings color k xc (printed lvl r) = (ts, none) ∧ All2 (Heading color k xc) (headingsOf (printed lvl r)) ts :=
  outHeadings_ok color k xc _ fun p hp => C87_heading lvl depth seen xc r h p hp color _ _

/-! ### C161 -/

/-- the element at a position: its kind, its number in what it is in, and its ID (spec) -/
inductive Named (k : Nat) (xc : Opened) : List Nat → Str → Nat → Option Str → Prop
  | corpus : Named k xc [] (lit! "corpus") k xc.corpus.data.id
  | igt {i g} : xc.igts[i]? = some (.ok g) → Named k xc [i] (lit! "igt") i g.data.id
  | tier {i g j t} : xc.igts[i]? = some (.ok g) → g.kids[j]? = some t → Named k xc [i, j] (lit! "tier") j t.data.id
  | item {i g j t n x} : xc.igts[i]? = some (.ok g) → g.kids[j]? = some t → t.kids[n]? = some x → Named k xc [i, j, n] (lit! "item") n x.data.id

/-- the ID in a heading, if there is one (spec) -/
def inBrackets : Option Str → Str
  | none => []
  | some s => if s = [] then [] else lit! "(id: \"" ++ s ++ lit! "\")"

/-- the heading of an element (spec): bold if coloured, a blank for each level, the kind of element, its number, and its ID if it has one -/
def HeadingLine (color : Bool) (k : Nat) (xc : Opened) (p : List Nat) (t : Str) : Prop :=
  ∃ kind n id, Named k xc p kind n id ∧ t = (if color then lit! "\x1b[1m" else []) ++ List.replicate p.length ' ' ++ kind ++ lit! " " ++ natStr n ++
    lit! " " ++ inBrackets id ++ (if color then lit! "\x1b[0m" else [])

/-- every report is that of an element -/
theorem named_of_sub {depth : Nat} {seen : List Str} {xc : Opened} {r : Report} (h : validateCorpus depth seen xc = .ok r) (k : Nat) (p : List Nat)
    (hp : (r.sub p).isSome = true) : ∃ kind, Named k xc p kind (indexAt k p) (idAt xc p) ∧ datalevels[p.length]? = some kind := by
  simp only [validateCorpus, bind, Except.bind] at h
  split at h
  · cases h
  split at h
  · cases h
  rename_i cs hcs
  cases h
  obtain ⟨igts, h0, h1, h2⟩ := validateIgts_get hcs
  cases p with
  | nil => exact ⟨_, .corpus, rfl⟩
  | cons i p =>
    rw [Report.sub, Report.children] at hp
    cases hg : igts[i]? with
    | none =>
      have : cs[i]? = none := by rw [List.getElem?_eq_none_iff] at hg ⊢; omega
      rw [this] at hp
      cases hp
    | some g =>
      have hxg : xc.igts[i]? = some (.ok g) := by rw [h0, List.getElem?_map, hg]; rfl
      obtain ⟨ri, us, h3, -, h5⟩ := h2 i g hg
      rw [h5] at hp
      simp only at hp
      have hid : idAt xc (i :: p) = (elemAt g p).bind fun y => y.data.id := by simp [idAt, hxg]
      rw [hid]
      simp only [validateIgt, bind, Except.bind] at h3
      split at h3
      · cases h3
      split at h3
      · cases h3
      rename_i ts hts
      cases h3
      obtain ⟨h6, h7⟩ := validateTiers_get hts
      cases p with
      | nil => exact ⟨_, .igt hxg, rfl⟩
      | cons j p =>
        rw [Report.sub, extend_children, Report.children] at hp
        cases ht : g.kids[j]? with
        | none =>
          have : ts[j]? = none := by rw [List.getElem?_eq_none_iff] at ht ⊢; omega
          rw [this] at hp
          cases hp
        | some t =>
          obtain ⟨rt, ut, q, h8, -, h10, h11⟩ := h7 j t ht
          rw [h11] at hp
          simp only at hp
          obtain ⟨rrs, its, rfl, -, h13⟩ := validateTier_node h8
          rw [Report.children] at h10
          obtain ⟨h14, h15⟩ := validateItems_get h13
          obtain ⟨h16, -, h18⟩ := igtItems_get h14 h10
          cases p with
          | nil =>
            refine ⟨_, ?_, rfl⟩
            have := Named.tier (k := k) hxg ht
            simpa [elemAt, ht, indexAt] using this
          | cons n p =>
            rw [Report.sub, Report.children] at hp
            cases hx : t.kids[n]? with
            | none =>
              have : q.1[n]? = none := by rw [List.getElem?_eq_none_iff] at hx ⊢; omega
              rw [this] at hp
              cases hp
            | some x =>
              obtain ⟨rx, ux, h19, -, -⟩ := h15 n x hx
              obtain ⟨uy, h22, -⟩ := h18 n x _ hx h19
              rw [h22] at hp
              simp only [extend] at hp
              cases p with
              | nil =>
                refine ⟨_, ?_, rfl⟩
                have := Named.item (k := k) hxg ht hx
                simpa [elemAt, ht, hx, indexAt] using this
              | cons o p => simp [Report.sub, Report.children] at hp

theorem heading_line {color : Bool} {k depth : Nat} {seen : List Str} {xc : Opened} {r : Report} (h : validateCorpus depth seen xc = .ok r) {p : List Nat}
    (hp : (r.sub p).isSome = true) {t : Str} (ht : Heading color k xc p t) : HeadingLine color k xc p t := by
  obtain ⟨kind, h1, h2⟩ := named_of_sub h k p hp
  refine ⟨kind, _, _, h1, ?_⟩
  unfold Heading headingText at ht
  rw [h2] at ht
  cases ht
  have : (if truthy (idAt xc p) = true then lit! "(id: \"" ++ (idAt xc p).getD [] ++ lit! "\")" else []) = inBrackets (idAt xc p) := by
    rcases idAt xc p with _ | _ | ⟨c, s⟩ <;> simp [truthy, inBrackets]
  rw [this]
  cases color <;> simp [BOLD_SEQ, RESET_SEQ]

/-- **C161**, one file: one that is not XML is named with its number; of one that can be checked there is a heading for each element in or below which
something of the level or above was found, in the order of the document, and no other line. -/
theorem C161_file (color : Bool) (lvl depth k : Nat) (f : Str) (seen : List Str) :
    (outFiles color lvl depth k [(f, .error .parseError)] seen).1 = [lit! "Corpus " ++ natStr k ++ lit! " (" ++ f ++
      lit! ") failed to load. First verify that the XML file is valid by doing a schema validation."] ∧
    ∀ xc r, validateCorpus depth seen xc = .ok r → ∃ ps, ps.Pairwise Before ∧ (∀ p, p ∈ ps ↔ FoundAt lvl r p) ∧
      All2 (HeadingLine color k xc) ps (outFiles color lvl depth k [(f, .ok xc)] seen).1 := by
  refine ⟨by simp [outFiles, notLoaded], fun xc r h => ?_⟩
  obtain ⟨ts, h1, h2⟩ := file_out color lvl depth k seen xc r h
  refine ⟨headingsOf (printed lvl r), (headings_spec lvl r).1, (headings_spec lvl r).2, ?_⟩
  have hin : ∀ p ∈ headingsOf (printed lvl r), (r.sub p).isSome = true := by
    intro p hp
    obtain ⟨s, hs, _⟩ := foundAt_iff.1 (((headings_spec lvl r).2 p).1 hp)
    rw [hs]; rfl
  have h3 : All2 (HeadingLine color k xc) (headingsOf (printed lvl r)) ts := by
    generalize headingsOf (printed lvl r) = ps at h2 hin
    clear h1
    induction h2 with
    | nil => exact .nil
    | cons h4 _ ih => exact .cons (heading_line h (hin _ (by simp)) h4) (ih fun p hp => hin p (by simp [hp]))
  simpa [outFiles, h, h1] using h3

/-- the IDs of the corpora of files that can be read (spec) -/
def corpusIds (files : List (Str × Py Opened)) : List Str := files.filterMap fun f => match f.2 with
  | .ok xc => xc.corpus.data.id
  | .error _ => none

/-- **C161**, several files: files that come later change nothing of what is printed for earlier ones, and are printed as if alone but for their
numbers and the IDs that the corpora before have; after an exception nothing is printed. -/
theorem C161_append (color : Bool) (lvl depth : Nat) (gs : List (Str × Py Opened)) : ∀ (fs : List (Str × Py Opened)) (k : Nat) (seen : List Str),
    match outFiles color lvl depth k fs seen with
    | (ls, .error e) => outFiles color lvl depth k (fs ++ gs) seen = (ls, .error e)
    | (ls, .ok bs) => outFiles color lvl depth k (fs ++ gs) seen =
        (ls ++ (outFiles color lvl depth (k + fs.length) gs (seen ++ corpusIds fs)).1,
          (outFiles color lvl depth (k + fs.length) gs (seen ++ corpusIds fs)).2.map fun bs' => bs ++ bs') := by
  intro fs
  induction fs with
  | nil =>
    intro k seen
    simp only [outFiles, corpusIds, List.filterMap_nil, List.nil_append, List.append_nil, List.length_nil, Nat.add_zero]
    refine Prod.ext rfl ?_
    cases (outFiles color lvl depth k gs seen).2 <;> rfl
  | cons f fs ih =>
    intro k seen
    obtain ⟨f, r⟩ := f
    cases r with
    | error e =>
      have ih := ih (k + 1) seen
      rw [List.cons_append, outFiles, outFiles]
      have hc : corpusIds ((f, .error e) :: fs) = corpusIds fs := rfl
      rw [hc, List.length_cons, show k + (fs.length + 1) = k + 1 + fs.length by omega]
      by_cases he : e = .parseError
      · simp only [if_pos he]
        cases ho : outFiles color lvl depth (k + 1) fs seen with
        | mk ls o =>
          rw [ho] at ih
          cases o with
          | error e' => simp only at ih ⊢; rw [ih]
          | ok bs => simp only at ih ⊢; rw [ih]; simp
      · simp only [if_neg he]
    | ok xc =>
      have ih := ih (k + 1) (addId seen xc.corpus)
      rw [List.cons_append, outFiles, outFiles]
      have hc : seen ++ corpusIds ((f, .ok xc) :: fs) = addId seen xc.corpus ++ corpusIds fs := by
        simp only [corpusIds, addId]
        cases hi : xc.corpus.data.id <;> simp [hi]
      rw [hc, List.length_cons, show k + (fs.length + 1) = k + 1 + fs.length by omega]
      cases hv : validateCorpus depth seen xc with
      | error e => simp only
      | ok r =>
        obtain ⟨ts, h1, _⟩ := file_out color lvl depth k seen xc r hv
        simp only [h1]
        cases ho : outFiles color lvl depth (k + 1) fs (addId seen xc.corpus) with
        | mk ls o =>
          rw [ho] at ih
          cases o with
          | error e' => simp only at ih ⊢; rw [ih]; rfl
          | ok bs =>
            simp only at ih ⊢
            rw [ih]
            simp only [Except.map, List.append_assoc]
            cases (outFiles color lvl depth (k + 1 + fs.length) gs (addId seen xc.corpus ++ corpusIds fs)).2 <;> rfl

/-- the files pass as `run` says -/
theorem outFiles_run (color : Bool) (lvl depth : Nat) : ∀ (fs : List (Str × Py Opened)) (k : Nat) (seen : List Str),
    (outFiles color lvl depth k fs seen).2 = runFiles lvl depth (fs.map Prod.snd) seen := by
  intro fs
  induction fs with
  | nil => intro k seen; rfl
  | cons f fs ih =>
    intro k seen
    obtain ⟨f, r⟩ := f
    cases r with
    | error e =>
      rw [outFiles, List.map_cons, runFiles]
      by_cases he : e = .parseError
      · rw [if_pos he, if_pos he]; exact ih _ _
      · rw [if_neg he, if_neg he]
    | ok xc =>
      rw [outFiles, List.map_cons, runFiles]
      simp only [bind, Except.bind]
      cases hv : validateCorpus depth seen xc with
      | error e => rfl
      | ok r =>
        obtain ⟨ts, h1, _⟩ := file_out color lvl depth k seen xc r hv
        simp only [h1]
        rw [ih]
        cases runFiles lvl depth (fs.map Prod.snd) (addId seen xc.corpus) <;> rfl

omit [Uni] in
theorem heading_head {color : Bool} {k : Nat} {xc : Opened} {p : List Nat} {t : Str} (h : Heading color k xc p t) :
    t.head? = some (if color then ESC else if p = [] then 'c' else ' ') := by
  unfold Heading headingText at h
  cases hl : datalevels[p.length]? with
  | none => rw [hl] at h; cases h
  | some l =>
    rw [hl] at h
    cases h
    cases color with
    | true => rfl
    | false =>
      cases p with
      | nil =>
        have : l = lit! "corpus" := by simpa [datalevels] using hl.symm
        subst this
        rfl
      | cons i p => simp [List.replicate_succ]

omit [Uni] in
theorem notLoaded_head (k : Nat) (f : Str) : (notLoaded k f).head? = some 'C' := rfl

/-- **C161**, the status: it is 0 exactly if the program goes through all files (at least one) and prints nothing, or only that files are not XML. -/
theorem C161_status (color : Bool) (fs : List Flag) (depth : Nat) (files : List (Str × Py Opened)) :
    exitStatus fs depth (files.map Prod.snd) = 0 ↔ files ≠ [] ∧ (∃ bs, run (logLevel fs) depth (files.map Prod.snd) = .ok bs) ∧
      ∀ t ∈ stdout color fs depth files, ∃ k f, t = notLoaded k f := by
  have key : ∀ (l : List (Str × Py Opened)) (k : Nat) (seen : List Str) (bs : List Bool),
      (outFiles color (logLevel fs) depth k l seen).2 = .ok bs →
      (bs.all id = true ↔ ∀ t ∈ (outFiles color (logLevel fs) depth k l seen).1, ∃ k f, t = notLoaded k f) := by
    intro l
    induction l with
    | nil => intro k seen bs h; cases h; simp [outFiles]
    | cons f l ih =>
      intro k seen bs h
      obtain ⟨f, r⟩ := f
      cases r with
      | error e =>
        rw [outFiles] at h ⊢
        by_cases he : e = .parseError
        · rw [if_pos he] at h ⊢
          rw [ih _ _ _ h]
          simp only [List.mem_cons, forall_eq_or_imp]
          exact ⟨fun hh => ⟨⟨k, f, rfl⟩, hh⟩, fun hh => hh.2⟩
        · rw [if_neg he] at h; cases h
      | ok xc =>
        rw [outFiles] at h ⊢
        cases hv : validateCorpus depth seen xc with
        | error e => rw [hv] at h; cases h
        | ok r =>
          obtain ⟨ts, h1, h2⟩ := file_out color (logLevel fs) depth k seen xc r hv
          rw [hv] at h
          simp only [h1] at h ⊢
          cases ho : (outFiles color (logLevel fs) depth (k + 1) l (addId seen xc.corpus)).2 with
          | error e => rw [ho] at h; cases h
          | ok bs' =>
            rw [ho] at h
            cases h
            have := ih _ _ _ ho
            simp only [List.all_cons, id, Bool.and_eq_true, List.mem_append]
            rw [this, C52_filter, ← C87_nothing]
            have hn : printed (logLevel fs) r = [] ↔ ts = [] := by
              constructor
              · intro e
                rw [e] at h2
                cases h2; rfl
              · intro e
                subst e
                have h3 : headingsOf (printed (logLevel fs) r) = [] := by
                  generalize headingsOf (printed (logLevel fs) r) = x at h2
                  cases h2; rfl
                rw [C87_nothing]
                intro hp
                have := ((headings_spec (logLevel fs) r).2 []).2 (foundAt_iff.2 ⟨r, rfl, hp⟩)
                rw [h3] at this
                cases this
            rw [hn]
            constructor
            · rintro ⟨rfl, hh⟩ t (ht | ht)
              · cases ht
              · exact hh t ht
            · intro hh
              refine ⟨?_, fun t ht => hh t (.inr ht)⟩
              cases ts with
              | nil => rfl
              | cons t ts =>
                obtain ⟨k', f', e⟩ := hh t (.inl (by simp))
                obtain ⟨p, _, hp⟩ := h2.mem_right t (by simp)
                have h3 := heading_head hp
                rw [e, notLoaded_head] at h3
                exfalso
                revert h3
                cases color <;> cases p <;> simp [ESC]
  have hr : ∀ l : List (Py Opened), run (logLevel fs) depth l = (runFiles (logLevel fs) depth l []).map fun bs => bs.all id := by
    intro l
    unfold run
    cases runFiles (logLevel fs) depth l [] <;> rfl
  unfold exitStatus stdout
  cases files with
  | nil => simp
  | cons f files =>
    simp only [List.map_cons, List.isEmpty_cons, Bool.false_eq_true, if_false]
    rw [← List.map_cons (f := Prod.snd), hr]
    cases hq : runFiles (logLevel fs) depth ((f :: files).map Prod.snd) [] with
    | error e => simp [Except.map]
    | ok bs =>
      have := key (f :: files) 0 [] bs (by rw [outFiles_run]; exact hq)
      rw [← this]
      simp only [Except.map]
      cases hb : bs.all id <;> simp

/-! ### Reading what is printed -/

omit [Uni] in
theorem before_not_prefix {p q : List Nat} (h : Before p q) : ¬ ∃ s, p = q ++ s := by
  induction h with
  | nil => rintro ⟨s, e⟩; cases e
  | lt h => rintro ⟨s, e⟩; cases e; exact absurd h (Nat.lt_irrefl _)
  | same _ ih => rintro ⟨s, e⟩; cases e; exact ih ⟨s, rfl⟩

omit [Uni] in
/-- what lies between an element and something below it is below it -/
theorem between {a p : List Nat} {s : List Nat} (h1 : a = p ∨ Before a p) (h2 : Before p (a ++ s)) : ∃ t, p = a ++ t := by
  rcases h1 with rfl | h1
  · exact ⟨[], by simp⟩
  · induction h1 with
    | nil => exact ⟨_, rfl⟩
    | lt h =>
      exfalso
      cases h2 with
      | lt h' => exact absurd h (by omega)
      | same _ => exact absurd h (Nat.lt_irrefl _)
    | same h ih =>
      cases h2 with
      | lt h' => exact absurd h' (Nat.lt_irrefl _)
      | same h' =>
        obtain ⟨t, rfl⟩ := ih h'
        exact ⟨t, rfl⟩

/-- positions, each with the one its element is in before it (spec) -/
def Closed (ps : List (List Nat)) : Prop := ∀ p i, p ++ [i] ∈ ps → p ∈ ps

omit [Uni] in
/-- in an ordered and closed list each position is the next one: it follows from the one before by its depth and its last number -/
theorem next_position {before after : List (List Nat)} {p q : List Nat} {i : Nat} (hs : (before ++ p :: (q ++ [i]) :: after).Pairwise Before)
    (hc : Closed (before ++ p :: (q ++ [i]) :: after)) : q = p.take q.length := by
  have hq := hc q i (by simp)
  rw [List.pairwise_append] at hs
  obtain ⟨_, h2, h3⟩ := hs
  rw [List.pairwise_cons, List.pairwise_cons] at h2
  obtain ⟨h4, h5, _⟩ := h2
  have hnot : ¬ (q = q ++ [i] ∨ Before (q ++ [i]) q) := by
    rintro (e | e)
    · have := congrArg List.length e; simp at this
    · exact before_not_prefix e ⟨[i], rfl⟩
  have hle : q = p ∨ Before q p := by
    simp only [List.mem_append, List.mem_cons] at hq
    rcases hq with hq | hq | hq | hq
    · exact .inr (h3 q hq p (by simp))
    · exact .inl hq
    · exact absurd (.inl hq) hnot
    · exact absurd (.inr (h5 q hq)) hnot
  obtain ⟨t, rfl⟩ := between hle (h4 (q ++ [i]) (by simp))
  simp

omit [Uni] in
theorem first_position {p : List Nat} {after : List (List Nat)} (hs : (p :: after).Pairwise Before) (hc : Closed (p :: after)) : p = [] := by
  rcases List.eq_nil_or_concat p with rfl | ⟨q, i, rfl⟩
  · rfl
  · exfalso
    rw [List.pairwise_cons] at hs
    have hq := hc q i (by simp)
    rcases List.mem_cons.1 hq with e | hq
    · have := congrArg List.length e; simp at this
    · exact before_not_prefix (hs.1 q hq) ⟨[i], by simp⟩

omit [Uni] in
/-- an ordered and closed list of positions is known from the depth and the last number of each -/
theorem positions_known : ∀ (rest rest' before : List (List Nat)), (before ++ rest).Pairwise Before → Closed (before ++ rest) →
    (before ++ rest').Pairwise Before → Closed (before ++ rest') →
    All2 (fun p q => p.length = q.length ∧ p.getLast? = q.getLast?) rest rest' → rest = rest' := by
  intro rest
  induction rest with
  | nil => intro rest' before _ _ _ _ h; cases h; rfl
  | cons p rest ih =>
    intro rest' before hs hc hs' hc' h
    cases h with
    | cons h h4 =>
      rename_i p' rest'
      obtain ⟨h1, h2⟩ := h
      have hp : p = p' := by
        rcases List.eq_nil_or_concat before with rfl | ⟨b, a, rfl⟩
        · rw [first_position hs hc, first_position hs' hc']
        · rcases List.eq_nil_or_concat p with rfl | ⟨q, i, rfl⟩
          · exact (List.length_eq_zero_iff.1 h1.symm).symm
          rcases List.eq_nil_or_concat p' with rfl | ⟨q', i', rfl⟩
          · simp at h1
          simp only [List.concat_eq_append, List.append_assoc, List.singleton_append, List.length_append, List.length_singleton, Nat.add_right_cancel_iff, List.getLast?_append,
            List.getLast?_singleton, Option.some_or, Option.some.injEq] at *
          have e1 := next_position (p := a) hs hc
          have e2 := next_position (p := a) hs' hc'
          rw [e1, e2, h1, h2]
      subst hp
      have e : ∀ l, before ++ p :: l = (before ++ [p]) ++ l := by simp
      rw [e] at hs hc hs' hc'
      rw [ih rest' _ hs hc hs' hc' h4]

theorem found_closed (lvl : Nat) (r : Report) : Closed (headingsOf (printed lvl r)) := by
  intro p i h
  rw [(headings_spec lvl r).2] at h ⊢
  obtain ⟨q, x, h1, h2⟩ := h
  exact ⟨i :: q, x, by simpa using h1, h2⟩

omit [Uni] in
theorem natStr_cut {k k' : Nat} {a b : Str} (h : natStr k ++ ' ' :: a = natStr k' ++ ' ' :: b) : k = k' ∧ a = b := by
  obtain ⟨h1, h2⟩ := cut (fun hh => (natStr_ascii _ _ hh).2 rfl) (fun hh => (natStr_ascii _ _ hh).2 rfl) h
  exact ⟨@natStr_inj asciiUni _ _ h1, h2⟩

omit [Uni] in
theorem notLoaded_inj {k k' : Nat} {f f' : Str} (h : notLoaded k f = notLoaded k' f') : k = k' ∧ f = f' := by
  unfold notLoaded at h
  simp only [List.append_assoc] at h
  have h := List.append_cancel_left h
  obtain ⟨h1, h2⟩ := natStr_cut (a := '(' :: (f ++ _)) (b := '(' :: (f' ++ _)) h
  refine ⟨h1, ?_⟩
  exact List.append_cancel_right (List.cons.inj h2).2

/-- a line that a file begins with -/
def Starts (k : Nat) (t : Str) : Prop := (∃ f, t = notLoaded k f) ∨ ∃ xc, Heading false k xc [] t

omit [Uni] in
theorem starts_head {k : Nat} {t : Str} (h : Starts k t) : t.head? ≠ some ' ' := by
  rcases h with ⟨f, rfl⟩ | ⟨xc, h⟩
  · rw [notLoaded_head]; decide
  · rw [heading_head h]; decide

omit [Uni] in
theorem starts_inj {k k' : Nat} {t : Str} (h : Starts k t) (h' : Starts k' t) : k = k' := by
  rcases h with ⟨f, rfl⟩ | ⟨xc, h⟩ <;> rcases h' with ⟨f', e⟩ | ⟨xc', h'⟩
  · exact (notLoaded_inj e).1
  · have := heading_head h'; rw [notLoaded_head] at this; exact absurd this (by decide)
  · have := heading_head h; rw [e, notLoaded_head] at this; exact absurd this (by decide)
  · exact (C99_reads _ _ _ _ _ _ _ h h').2.1

/-- what is found in the files: none for one that is not XML (spec) -/
def results (depth : Nat) : List (Str × Py Opened) → List Str → Py (List (Str × Option (Opened × Report)))
  | [], _ => .ok []
  | (f, .error e) :: fs, seen => if e = .parseError then (results depth fs seen).map fun l => (f, none) :: l else .error e
  | (f, .ok xc) :: fs, seen => do
    let r ← validateCorpus depth seen xc
    let l ← results depth fs (addId seen xc.corpus)
    .ok ((f, some (xc, r)) :: l)

/-- the same is wrong in two files: neither is XML and their names are the same, or both can be checked and the same elements are wrong, which have
the same IDs (spec) -/
def SameWrong (lvl lvl' : Nat) : Str × Option (Opened × Report) → Str × Option (Opened × Report) → Prop
  | (f, none), (f', none) => f = f'
  | (_, some (xc, r)), (_, some (xc', r')) => ∀ p, (FoundAt lvl r p ↔ FoundAt lvl' r' p) ∧
      (FoundAt lvl r p → (idAt xc p).getD [] = (idAt xc' p).getD [])
  | _, _ => False

/-- the lines for a file -/
def part (lvl k : Nat) : Str × Option (Opened × Report) → List Str
  | (f, none) => [notLoaded k f]
  | (_, some (xc, r)) => (outHeadings false k xc (printed lvl r)).1

theorem out_parts (lvl depth : Nat) : ∀ (fs : List (Str × Py Opened)) (k : Nat) (seen : List Str) (l : List (Str × Option (Opened × Report))),
    results depth fs seen = .ok l → (∀ x ∈ l, ∀ xc r, x.2 = some (xc, r) → ∃ seen, validateCorpus depth seen xc = .ok r) ∧
      (outFiles false lvl depth k fs seen).1 = (l.zipIdx k).flatMap fun x => part lvl x.2 x.1 := by
  intro fs
  induction fs with
  | nil => intro k seen l h; cases h; simp [outFiles]
  | cons f fs ih =>
    intro k seen l h
    obtain ⟨f, r⟩ := f
    cases r with
    | error e =>
      rw [results] at h
      by_cases he : e = .parseError
      · rw [if_pos he] at h
        cases hr : results depth fs seen with
        | error e => rw [hr] at h; cases h
        | ok l' =>
          rw [hr] at h
          cases h
          obtain ⟨h1, h2⟩ := ih (k + 1) seen l' hr
          refine ⟨?_, ?_⟩
          · intro x hx xc r hxr
            rcases List.mem_cons.1 hx with rfl | hx
            · cases hxr
            · exact h1 x hx xc r hxr
          · simp [outFiles, he, h2, part]
      · rw [if_neg he] at h; cases h
    | ok xc =>
      rw [results] at h
      simp only [bind, Except.bind] at h
      cases hv : validateCorpus depth seen xc with
      | error e => rw [hv] at h; cases h
      | ok r =>
        rw [hv] at h
        simp only at h
        cases hr : results depth fs (addId seen xc.corpus) with
        | error e => rw [hr] at h; cases h
        | ok l' =>
          rw [hr] at h
          cases h
          obtain ⟨h1, h2⟩ := ih (k + 1) _ l' hr
          obtain ⟨ts, h3, _⟩ := file_out false lvl depth k seen xc r hv
          refine ⟨?_, ?_⟩
          · intro x hx xc' r' hxr
            rcases List.mem_cons.1 hx with rfl | hx
            · cases hxr; exact ⟨seen, hv⟩
            · exact h1 x hx xc' r' hxr
          · simp [outFiles, hv, h3, h2, part]

/-- a file with a report that checking gives -/
def Made (depth : Nat) (x : Str × Option (Opened × Report)) : Prop := ∀ xc r, x.2 = some (xc, r) → ∃ seen, validateCorpus depth seen xc = .ok r

theorem part_shape {lvl depth k : Nat} {x : Str × Option (Opened × Report)} (hm : Made depth x) :
    part lvl k x = [] ∨ ∃ t ts, part lvl k x = t :: ts ∧ Starts k t ∧ ∀ u ∈ ts, u.head? = some ' ' := by
  obtain ⟨f, o⟩ := x
  cases o with
  | none => exact .inr ⟨_, [], rfl, .inl ⟨f, rfl⟩, by simp⟩
  | some y =>
    obtain ⟨xc, r⟩ := y
    obtain ⟨seen, hv⟩ := hm xc r rfl
    obtain ⟨ts, h1, h2⟩ := file_out false lvl depth k seen xc r hv
    simp only [part, h1]
    have hs := (headings_spec lvl r).1
    have hc := found_closed lvl r
    cases hp : headingsOf (printed lvl r) with
    | nil => rw [hp] at h2; cases h2; exact .inl rfl
    | cons p ps =>
      rw [hp] at h2 hs hc
      have := first_position hs hc
      subst this
      cases h2 with
      | cons h3 h4 =>
        refine .inr ⟨_, _, rfl, .inr ⟨xc, h3⟩, ?_⟩
        intro u hu
        obtain ⟨q, hq, hq'⟩ := h4.mem_right u hu
        rw [heading_head hq']
        have : q ≠ [] := by
          rintro rfl
          exact before_not_prefix ((List.pairwise_cons.1 hs).1 _ hq) ⟨[], rfl⟩
        simp [this]

theorem rest_head {lvl depth : Nat} : ∀ (l : List (Str × Option (Opened × Report))) (k : Nat), (∀ x ∈ l, Made depth x) →
    ∀ t, ((l.zipIdx k).flatMap fun x => part lvl x.2 x.1).head? = some t → ∃ j, k ≤ j ∧ Starts j t := by
  intro l
  induction l with
  | nil => intro k _ t h; cases h
  | cons x l ih =>
    intro k hm t h
    rw [List.zipIdx_cons, List.flatMap_cons] at h
    rcases part_shape (lvl := lvl) (k := k) (hm x (by simp)) with e | ⟨u, us, e, h1, _⟩
    · rw [e, List.nil_append] at h
      obtain ⟨j, h2, h3⟩ := ih (k + 1) (fun y hy => hm y (by simp [hy])) t h
      exact ⟨j, by omega, h3⟩
    · rw [e] at h
      cases h
      exact ⟨k, Nat.le_refl _, h1⟩

omit [Uni] in
theorem split_same {α : Type} {P : α → Prop} : ∀ {a b c d : List α}, (∀ x ∈ a, P x) → (∀ x ∈ c, P x) → (∀ x, b.head? = some x → ¬ P x) →
    (∀ x, d.head? = some x → ¬ P x) → a ++ b = c ++ d → a = c ∧ b = d := by
  intro a
  induction a with
  | nil =>
    intro b c d _ hc hb _ h
    cases c with
    | nil => exact ⟨rfl, h⟩
    | cons x c => rw [List.nil_append] at h; subst h; exact absurd (hc x (by simp)) (hb x rfl)
  | cons x a ih =>
    intro b c d ha hc hb hd h
    cases c with
    | nil => rw [List.nil_append] at h; subst h; exact absurd (ha x (by simp)) (hd x rfl)
    | cons y c =>
      rw [List.cons_append, List.cons_append, List.cons.injEq] at h
      obtain ⟨h1, h2⟩ := ih (fun z hz => ha z (by simp [hz])) (fun z hz => hc z (by simp [hz])) hb hd h.2
      exact ⟨by rw [h.1, h1], h2⟩

theorem all2_headings {k : Nat} {xc xc' : Opened} : ∀ {ps qs : List (List Nat)} {ts : List Str}, All2 (Heading false k xc) ps ts →
    All2 (Heading false k xc') qs ts →
    All2 (fun p q => p.length = q.length ∧ p.getLast? = q.getLast?) ps qs ∧
      All2 (fun p q => (idAt xc p).getD [] = (idAt xc' q).getD []) ps qs := by
  intro ps qs ts h
  induction h generalizing qs with
  | nil => intro h; cases h; exact ⟨.nil, .nil⟩
  | @cons p t ps ts h1 _ ih =>
    intro h
    cases h with
    | @cons q _ qs _ h2 h3 =>
      obtain ⟨i1, i2⟩ := ih h3
      obtain ⟨e1, e2, e3⟩ := C99_reads _ _ _ _ _ _ _ h1 h2
      refine ⟨.cons ⟨e1, ?_⟩ i1, .cons e3 i2⟩
      unfold indexAt at e2
      rcases List.eq_nil_or_concat p with rfl | ⟨p', i, rfl⟩
      · rw [List.length_nil] at e1
        rw [List.length_eq_zero_iff.1 e1.symm]
      rcases List.eq_nil_or_concat q with rfl | ⟨q', i', rfl⟩
      · simp at e1
      simpa using e2

theorem All2.diag {α : Type} {R : α → α → Prop} : ∀ {as : List α}, All2 R as as → ∀ a ∈ as, R a a := by
  intro as
  induction as with
  | nil => intro _ a h; cases h
  | cons b as ih =>
    intro h a ha
    cases h with
    | cons h1 h2 =>
      rcases List.mem_cons.1 ha with rfl | ha
      · exact h1
      · exact ih h2 a ha

theorem part_tells {lvl lvl' depth depth' k : Nat} {x y : Str × Option (Opened × Report)} (hx : Made depth x) (hy : Made depth' y)
    (h : part lvl k x = part lvl' k y) : SameWrong lvl lvl' x y := by
  obtain ⟨f, o⟩ := x
  obtain ⟨g, o'⟩ := y
  cases o with
  | none =>
    cases o' with
    | none => exact (notLoaded_inj (List.cons.inj h).1).2
    | some y =>
      obtain ⟨xc, r⟩ := y
      obtain ⟨seen, hv⟩ := hy xc r rfl
      obtain ⟨ts, h1, h2⟩ := file_out false lvl' depth' k seen xc r hv
      simp only [part, h1] at h
      subst h
      obtain ⟨p, _, hp⟩ := h2.mem_right _ (List.mem_singleton.2 rfl)
      have := heading_head hp
      rw [notLoaded_head] at this
      cases p <;> simp at this
  | some x =>
    obtain ⟨xc, r⟩ := x
    obtain ⟨seen, hv⟩ := hx xc r rfl
    obtain ⟨ts, h1, h2⟩ := file_out false lvl depth k seen xc r hv
    cases o' with
    | none =>
      simp only [part, h1] at h
      subst h
      obtain ⟨p, _, hp⟩ := h2.mem_right _ (List.mem_singleton.2 rfl)
      have := heading_head hp
      rw [notLoaded_head] at this
      cases p <;> simp at this
    | some y =>
      obtain ⟨xc', r'⟩ := y
      obtain ⟨seen', hv'⟩ := hy xc' r' rfl
      obtain ⟨ts', h3, h4⟩ := file_out false lvl' depth' k seen' xc' r' hv'
      simp only [part, h1, h3] at h
      subst h
      obtain ⟨h5, h6⟩ := all2_headings h2 h4
      have he : headingsOf (printed lvl r) = headingsOf (printed lvl' r') :=
        positions_known _ _ [] (headings_spec lvl r).1 (found_closed lvl r) (headings_spec lvl' r').1 (found_closed lvl' r') h5
      rw [← he] at h6
      intro p
      refine ⟨?_, fun hp => All2.diag h6 p (((headings_spec lvl r).2 p).2 hp)⟩
      rw [← (headings_spec lvl r).2, ← (headings_spec lvl' r').2, he]

theorem parts_tell {lvl lvl' depth depth' : Nat} : ∀ (l l' : List (Str × Option (Opened × Report))) (k : Nat), (∀ x ∈ l, Made depth x) →
    (∀ x ∈ l', Made depth' x) → l.length = l'.length →
    ((l.zipIdx k).flatMap fun x => part lvl x.2 x.1) = ((l'.zipIdx k).flatMap fun x => part lvl' x.2 x.1) → All2 (SameWrong lvl lvl') l l' := by
  intro l
  induction l with
  | nil => intro l' k _ _ hl _; rw [List.length_nil] at hl; rw [List.length_eq_zero_iff.1 hl.symm]; exact .nil
  | cons x l ih =>
    intro l' k hm hm' hl h
    cases l' with
    | nil => simp at hl
    | cons y l' =>
      rw [List.zipIdx_cons, List.flatMap_cons, List.zipIdx_cons, List.flatMap_cons] at h
      have hr := rest_head (lvl := lvl) l (k + 1) fun z hz => hm z (by simp [hz])
      have hr' := rest_head (lvl := lvl') l' (k + 1) fun z hz => hm' z (by simp [hz])
      have key : part lvl k x = part lvl' k y ∧
          ((l.zipIdx (k + 1)).flatMap fun x => part lvl x.2 x.1) = ((l'.zipIdx (k + 1)).flatMap fun x => part lvl' x.2 x.1) := by
        generalize ((l.zipIdx (k + 1)).flatMap fun x => part lvl x.2 x.1) = b at h hr
        generalize ((l'.zipIdx (k + 1)).flatMap fun x => part lvl' x.2 x.1) = d at h hr'
        have no : ∀ {t j}, Starts k t → k + 1 ≤ j → ¬ Starts j t := by
          intro t j h1 h2 h3
          have := starts_inj h1 h3
          omega
        rcases part_shape (lvl := lvl) (k := k) (hm x (by simp)) with e | ⟨t, ts, e, h1, h2⟩ <;>
          rcases part_shape (lvl := lvl') (k := k) (hm' y (by simp)) with e' | ⟨t', ts', e', h1', h2'⟩ <;> simp only [e, e'] at h ⊢
        · exact ⟨trivial, h⟩
        · exfalso
          rw [List.nil_append] at h
          subst h
          obtain ⟨j, hj, hs⟩ := hr t' rfl
          exact no h1' hj hs
        · exfalso
          rw [List.nil_append] at h
          subst h
          obtain ⟨j, hj, hs⟩ := hr' t rfl
          exact no h1 hj hs
        · rw [List.cons_append, List.cons_append, List.cons.injEq] at h
          obtain ⟨h3, h4⟩ := split_same (P := fun u : Str => u.head? = some ' ') h2 h2' (fun u hu => by
            obtain ⟨j, _, hs⟩ := hr u hu
            exact starts_head hs) (fun u hu => by
            obtain ⟨j, _, hs⟩ := hr' u hu
            exact starts_head hs) h.2
          exact ⟨by rw [h.1, h3], h4⟩
      refine .cons (part_tells (hm x (by simp)) (hm' y (by simp)) key.1) ?_
      exact ih l' (k + 1) (fun z hz => hm z (by simp [hz])) (fun z hz => hm' z (by simp [hz])) (by simpa using hl) key.2

/-- **C161**, reading: if two runs over as many files go to their ends and print the same, then in each pair of files the same is wrong: what is printed
tells which files are not XML, and of the others in which elements something was found. -/
theorem C161_reads (fs fs' : List Flag) (depth depth' : Nat) (files files' : List (Str × Py Opened)) (l l') (h : results depth files [] = .ok l)
    (h' : results depth' files' [] = .ok l') (hl : l.length = l'.length) (he : stdout false fs depth files = stdout false fs' depth' files') :
    All2 (SameWrong (logLevel fs) (logLevel fs')) l l' := by
  obtain ⟨h1, h2⟩ := out_parts (logLevel fs) depth files 0 [] l h
  obtain ⟨h1', h2'⟩ := out_parts (logLevel fs') depth' files' 0 [] l' h'
  unfold stdout at he
  rw [h2, h2'] at he
  exact parts_tell l l' 0 h1 h1' hl he

end

section
attribute [local instance] asciiUni

/-- three files: one with a wrong item, one that is not XML, and one whose ID is that of the first -/
def exFiles : List (Str × Py Opened) := [(lit! "a.xml", vBad), (lit! "b.xml", .error .parseError), (lit! "c.xml", vWarn)]

set_option maxRecDepth 100000 in
example : stdout false [] 9 exFiles = [lit! "corpus 0 (id: \"c\")", lit! " igt 0 (id: \"i1\")", lit! "  tier 1 (id: \"x\")",
    lit! "   item 0 (id: \"x1\")",
    lit! "Corpus 1 (b.xml) failed to load. First verify that the XML file is valid by doing a schema validation.",
    lit! "corpus 2 (id: \"c\")"] := by decide +kernel

set_option maxRecDepth 100000 in
/-- with colours and more messages: the item of the third file, where there is a warning -/
example : (stdout true [.verbose] 9 exFiles).drop 7 = [lit! "\x1b[1m  tier 1 (id: \"x\")\x1b[0m", lit! "\x1b[1m   item 0 (id: \"x1\")\x1b[0m"] := by
  decide +kernel

set_option maxRecDepth 100000 in
/-- the status is 0 though a file is not XML, and 1 with a heading printed -/
example : exitStatus [] 9 [.error .parseError, vWarn] = 0 ∧ (stdout false [] 9 [(lit! "b.xml", .error .parseError), (lit! "c.xml", vWarn)]).length = 1 ∧
    exitStatus [] 9 (exFiles.map Prod.snd) = 1 := by decide +kernel

set_option maxRecDepth 100000 in
/-- the files can be checked, so C161_reads speaks of them -/
example : (match results 9 exFiles [] with
    | .ok l => l.length
    | .error _ => 0) = 3 := by decide +kernel

end
end Xigt.Vld
