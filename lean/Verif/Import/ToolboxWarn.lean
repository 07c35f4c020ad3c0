import Verif.Import.ToolboxNames
import Verif.Import.ToolboxLog
/-
C172: which warnings the Toolbox importer passes on: /repo/xigt/importers/toolbox.py:176-199.

What the toolbox module warns of while it delivers the aligned fields of a record (`normalize_record` and `align_fields`, lazily) is given with
the record, like the fields themselves: the warnings before each field, and those after the last.  Warnings of the records themselves
(`toolbox.records`) are not caught by this code and are left out, and so are the filters of the module warnings, which decide what is shown of
what is passed on.
-/
set_option linter.unusedSectionVars false

namespace Xigt.Tbx

/-! ### Model -/

/-- a warning: whether its category is ToolboxWarning or one under it, and its message -/
structure Warning where
  toolbox : Bool
  text : Str
deriving DecidableEq

/-- a record, with what is warned of before each field and after the last -/
structure RecordW where
  context : Dict Str (Option Str)
  data : List (Str × Option Str)
  fields : List (List Str × Py Field)
  after : List Str := []

/-- the record without the warnings -/
def RecordW.plain (r : RecordW) : Record := ⟨r.context, r.data, r.fields.map Prod.snd⟩

section
variable [Uni] [Lex]

/-- toolbox.py:217-235: one field of a marker that has a tier -/
def fieldStep (o : Opts) (tid : Str) (aln : List Aln) (prev : Dict Str Obj) (done : List Obj) : Py (Dict Str Obj × List Obj) := do
  let (prev, done) ← phraseStep o tid aln prev done
  let ttype ← Dict.getItem o.tierTypes tid
  let algn := (alignmentOf o tid).2.bind (Dict.get? prev)
  let t ← asImportError (makeTier ttype tid (alignmentOf o tid).1 aln algn)
  let done ← yieldTier done t
  .ok (Dict.set prev tid t, done)

/-- toolbox.py:204-235 `make_all_tiers` (C72) with the warnings of the fields it asks for -/
def makeAllTiersW (o : Opts) (after : List Str) : List (List Str × Py Field) → Dict Str Obj → List Obj → List Str × Py (List Obj)
  | [], _, done => (after, .ok done)
  | (w, .error e) :: _, _, _ => (w, .error e)
  | (w, .ok (mkr, aln)) :: fs, prev, done =>
    match Dict.get? o.tierMap mkr with
    | none => let r := makeAllTiersW o after fs prev done; (w ++ r.1, r.2)
    | some tid =>
      match fieldStep o tid aln prev done with
      | .error e => (w, .error e)
      | .ok (prev, done) => let r := makeAllTiersW o after fs prev done; (w ++ r.1, r.2)

/-- toolbox.py:192-199: the first of the warnings is issued again, with the key if it is one of the toolbox module -/
def passOn (i : Str) : List Warning → List Warning
  | [] => []
  | w :: _ => if w.toolbox then [⟨true, i ++ lit! ": " ++ w.text⟩] else [w]

/-- toolbox.py:160-201 `make_igt` (C72) with the warnings it passes on; an exception leaves the `with` block before the first is taken.  The
Igt warns (C169) once it has its tiers. -/
def makeIgtW (o : Opts) (key : Str) (r : RecordW) : List Warning × Py (Option Obj) :=
  match igtId key with
  | .error e => ([], .error e)
  | .ok i =>
    if idAccepted i = false then ([], .error .valueError)
    else
      match makeAllTiersW o r.after r.fields [] [] with
      | (ws, .ok ts) =>
        let g := Obj.mk { cls := .igt, id := some i, attrs := igtAttrs o (r.data ++ r.context) } [] ts
        (passOn i (ws.map (Warning.mk true) ++ (refreshWarnings { igt := g }).map (Warning.mk false)), .ok (some g))
      | (ws, .error .xigtImportError) => (passOn i (ws.map (Warning.mk true)), .ok none)
      | (_, .error e) => ([], .error e)

/-- toolbox.py:145-158 `toolbox_igts` with the warnings passed on, up to its end or an exception -/
def toolboxIgtsW (o : Opts) (k : Str) : List RecordW → List Warning × Py (List Obj)
  | [] => ([], .ok [])
  | r :: rs =>
    match Dict.get? r.context k with
    | some (some key) =>
      match makeIgtW o key r with
      | (l, .error e) => (l, .error e)
      | (l, .ok x) =>
        match toolboxIgtsW o k rs with
        | (l', .error e) => (l ++ l', .error e)
        | (l', .ok xs) => (l ++ l', .ok (x.toList ++ xs))
    | _ => toolboxIgtsW o k rs

/-! ### Specification -/

/-- what is warned of while the record is imported: if an IGT is made, all of the toolbox module and then those of the Igt; else those up to the
first field with which the tiers cannot be made -/
inductive Issued (o : Opts) (r : RecordW) : Option Obj → List Warning → Prop
  | igt {g} : (∃ ts, makeAllTiers o (r.fields.map Prod.snd) [] [] = .ok ts) →
      Issued o r (some g) ((r.fields.flatMap Prod.fst ++ r.after).map (Warning.mk true) ++ (refreshWarnings { igt := g }).map (Warning.mk false))
  | out {a f b} : r.fields = a ++ f :: b → (∃ ts, makeAllTiers o (a.map Prod.snd) [] [] = .ok ts) →
      (∀ ts, makeAllTiers o ((a ++ [f]).map Prod.snd) [] [] ≠ .ok ts) → Issued o r none (((a ++ [f]).flatMap Prod.fst).map (Warning.mk true))

/-- what is passed on of these: the first, with the identifier if it is one of the toolbox module -/
inductive FirstOf (i : Str) : List Warning → List Warning → Prop
  | none : FirstOf i [] []
  | toolbox {t ws} : FirstOf i (⟨true, t⟩ :: ws) [⟨true, i ++ lit! ": " ++ t⟩]
  | other {t ws} : FirstOf i (⟨false, t⟩ :: ws) [⟨false, t⟩]

/-- record by record, what is passed on of its warnings -/
inductive Warned (o : Opts) (k : Str) : List RecordW → List Obj → List Warning → Prop
  | nil : Warned o k [] [] []
  | header {r rs xs l} : (∀ key, Dict.get? r.context k ≠ some (some key)) → Warned o k rs xs l → Warned o k (r :: rs) xs l
  | record {r rs key i x ws l xs l'} : Dict.get? r.context k = some (some key) → IsIgtId key i → Issued o r x ws → FirstOf i ws l →
      Warned o k rs xs l' → Warned o k (r :: rs) (x.toList ++ xs) (l ++ l')

/-! ### Properties -/

theorem fieldStep_eq (o : Opts) (mkr tid : Str) (aln : List Aln) (h : Dict.get? o.tierMap mkr = some tid) (fs : List (Py Field)) (prev : Dict Str Obj)
    (done : List Obj) : makeAllTiers o (.ok (mkr, aln) :: fs) prev done =
      match fieldStep o tid aln prev done with
      | .error e => .error e
      | .ok (prev, done) => makeAllTiers o fs prev done := by
  rw [makeAllTiers]
  simp only [h, fieldStep, bind, Except.bind]
  cases phraseStep o tid aln prev done with
  | error e => rfl
  | ok pd =>
    simp only
    cases Dict.getItem o.tierTypes tid with
    | error e => rfl
    | ok tt =>
      simp only
      cases asImportError (makeTier tt tid (alignmentOf o tid).1 aln ((alignmentOf o tid).2.bind (Dict.get? pd.1))) with
      | error e => rfl
      | ok t =>
        simp only
        cases yieldTier pd.2 t <;> rfl

theorem makeAllTiersW_same (o : Opts) (after : List Str) : ∀ (fs : List (List Str × Py Field)) (prev : Dict Str Obj) (done : List Obj),
    (makeAllTiersW o after fs prev done).2 = makeAllTiers o (fs.map Prod.snd) prev done := by
  intro fs
  induction fs with
  | nil => intro prev done; rfl
  | cons f fs ih =>
    obtain ⟨w, f⟩ := f
    intro prev done
    cases f with
    | error e => rfl
    | ok f =>
      obtain ⟨mkr, aln⟩ := f
      cases ht : Dict.get? o.tierMap mkr with
      | none => simp only [makeAllTiersW, ht, List.map_cons, makeAllTiers]; exact ih prev done
      | some tid =>
        rw [List.map_cons, fieldStep_eq o mkr tid aln ht]
        simp only [makeAllTiersW, ht]
        cases fieldStep o tid aln prev done with
        | error e => rfl
        | ok pd => exact ih _ _

/-- the warnings: all, or those up to the first field with which the tiers cannot be made -/
theorem makeAllTiersW_issued (o : Opts) (after : List Str) : ∀ (fs : List (List Str × Py Field)) (prev : Dict Str Obj) (done : List Obj),
    (∀ ts, makeAllTiers o (fs.map Prod.snd) prev done = .ok ts → (makeAllTiersW o after fs prev done).1 = fs.flatMap Prod.fst ++ after) ∧
    (∀ e, makeAllTiers o (fs.map Prod.snd) prev done = .error e → ∃ a f b, fs = a ++ f :: b ∧
      (∃ ts, makeAllTiers o (a.map Prod.snd) prev done = .ok ts) ∧ (∀ ts, makeAllTiers o ((a ++ [f]).map Prod.snd) prev done ≠ .ok ts) ∧
      (makeAllTiersW o after fs prev done).1 = (a ++ [f]).flatMap Prod.fst) := by
  intro fs
  induction fs with
  | nil =>
    intro prev done
    refine ⟨fun ts _ => rfl, fun e h => ?_⟩
    cases h
  | cons f fs ih =>
    obtain ⟨w, f⟩ := f
    intro prev done
    cases f with
    | error e =>
      refine ⟨fun ts h => (by cases h), fun e' _ => ⟨[], (w, .error e), fs, rfl, ⟨done, rfl⟩, fun ts h => (by cases h), ?_⟩⟩
      simp [makeAllTiersW]
    | ok f =>
      obtain ⟨mkr, aln⟩ := f
      cases ht : Dict.get? o.tierMap mkr with
      | none =>
        simp only [makeAllTiersW, ht, List.map_cons, makeAllTiers]
        refine ⟨fun ts h => ?_, fun e h => ?_⟩
        · rw [(ih prev done).1 ts h]; simp
        · obtain ⟨a, g, b, h1, h2, h3, h4⟩ := (ih prev done).2 e h
          refine ⟨(w, .ok (mkr, aln)) :: a, g, b, by rw [h1]; rfl, ?_, ?_, ?_⟩
          · simpa only [List.map_cons, makeAllTiers, ht] using h2
          · simpa only [List.cons_append, List.map_cons, makeAllTiers, ht] using h3
          · rw [h4]; simp
      | some tid =>
        rw [List.map_cons, fieldStep_eq o mkr tid aln ht]
        simp only [makeAllTiersW, ht]
        cases hs : fieldStep o tid aln prev done with
        | error e =>
          refine ⟨fun ts h => (by cases h), fun e' _ => ⟨[], (w, .ok (mkr, aln)), fs, rfl, ⟨done, rfl⟩, fun ts h => ?_, by simp⟩⟩
          rw [List.nil_append, List.map_cons, fieldStep_eq o mkr tid aln ht, hs] at h
          cases h
        | ok pd =>
          obtain ⟨prev', done'⟩ := pd
          simp only
          refine ⟨fun ts h => ?_, fun e h => ?_⟩
          · rw [(ih prev' done').1 ts h]; simp
          · obtain ⟨a, g, b, h1, h2, h3, h4⟩ := (ih prev' done').2 e h
            refine ⟨(w, .ok (mkr, aln)) :: a, g, b, by rw [h1]; rfl, ?_, ?_, ?_⟩
            · rw [List.map_cons, fieldStep_eq o mkr tid aln ht, hs]; exact h2
            · rw [List.cons_append, List.map_cons, fieldStep_eq o mkr tid aln ht, hs]; exact h3
            · rw [h4]; simp

theorem passOn_first (i : Str) (ws : List Warning) : FirstOf i ws (passOn i ws) := by
  cases ws with
  | nil => exact .none
  | cons w ws =>
    obtain ⟨b, t⟩ := w
    cases b
    · exact .other
    · exact .toolbox

theorem makeIgtW_same (o : Opts) (key : Str) (r : RecordW) : (makeIgtW o key r).2 = makeIgt o key r.data r.context (r.fields.map Prod.snd) := by
  unfold makeIgtW makeIgt
  simp only [bind, Except.bind]
  cases igtId key with
  | error e => rfl
  | ok i =>
    simp only
    by_cases h : idAccepted i = false
    · rw [if_pos h, if_pos h]
    · rw [if_neg h, if_neg h]
      have hs := makeAllTiersW_same o r.after r.fields [] []
      cases hm : makeAllTiersW o r.after r.fields [] [] with
      | mk ws x =>
        rw [hm] at hs
        rw [← hs]
        cases x with
        | ok ts => rfl
        | error e => cases e <;> rfl

/-- **C172**: passing on the warnings changes nothing. -/
theorem C172_same (o : Opts) (k : Str) (rs : List RecordW) : (toolboxIgtsW o k rs).2 = toolboxIgts o k (rs.map RecordW.plain) := by
  induction rs with
  | nil => rfl
  | cons r rs ih =>
    cases hk : Dict.get? r.context k with
    | none => simp only [toolboxIgtsW, toolboxIgts, List.map_cons, RecordW.plain, hk]; exact ih
    | some key =>
      cases key with
      | none => simp only [toolboxIgtsW, toolboxIgts, List.map_cons, RecordW.plain, hk]; exact ih
      | some key =>
        simp only [toolboxIgtsW, toolboxIgts, List.map_cons, RecordW.plain, hk]
        rw [← makeIgtW_same]
        change _ = (do let x ← (makeIgtW o key r).2; let xs ← toolboxIgts o k (rs.map RecordW.plain); .ok (x.toList ++ xs))
        rw [← ih]
        simp only [bind, Except.bind]
        cases makeIgtW o key r with
        | mk l x =>
          cases x with
          | error e => rfl
          | ok x =>
            simp only
            cases toolboxIgtsW o k rs with
            | mk l' xs => cases xs <;> rfl

/-- **C172**: of the warnings of a record, whether it becomes an IGT or is left out, the first is passed on, with the identifier of the record if
it is one of the toolbox module. -/
theorem C172_record (o : Opts) (key : Str) (r : RecordW) (l : List Warning) (x : Option Obj) (h : makeIgtW o key r = (l, .ok x)) :
    ∃ i ws, IsIgtId key i ∧ Issued o r x ws ∧ FirstOf i ws l := by
  unfold makeIgtW at h
  cases hi : igtId key with
  | error e => rw [hi] at h; cases h
  | ok i =>
    rw [hi] at h
    simp only at h
    by_cases ha : idAccepted i = false
    · rw [if_pos ha] at h; cases h
    · rw [if_neg ha] at h
      have hs := makeAllTiersW_same o r.after r.fields [] []
      obtain ⟨h1, h2⟩ := makeAllTiersW_issued o r.after r.fields [] []
      cases hm : makeAllTiersW o r.after r.fields [] [] with
      | mk ws y =>
        rw [hm] at h hs h1 h2
        simp only at hs h1 h2
        cases y with
        | ok ts =>
          cases h
          refine ⟨i, _, isIgtId_of hi, ?_, passOn_first i _⟩
          rw [h1 ts hs.symm]
          exact .igt ⟨ts, hs.symm⟩
        | error e =>
          obtain ⟨a, f, b, e1, e2, e3, e4⟩ := h2 e hs.symm
          cases e <;> first
            | (cases h; done)
            | (cases h
               refine ⟨i, _, isIgtId_of hi, ?_, passOn_first i _⟩
               rw [e4]
               exact .out e1 e2 e3)

/-- **C172**: of a record that stops the import nothing is passed on. -/
theorem C172_stopping (o : Opts) (key : Str) (r : RecordW) (l : List Warning) (e : PyErr) (h : makeIgtW o key r = (l, .error e)) : l = [] := by
  unfold makeIgtW at h
  split at h
  · cases h; rfl
  · split at h
    · cases h; rfl
    · split at h
      · cases h
      · cases h
      · cases h; rfl

/-- **C172**: of a file, what is passed on is, record by record, the first of its warnings. -/
theorem C172_partial (o : Opts) (k : Str) : ∀ (rs : List RecordW) (xs : List Obj) (l : List Warning), toolboxIgtsW o k rs = (l, .ok xs) →
    Warned o k rs xs l := by
  intro rs
  induction rs with
  | nil => intro xs l h; cases h; exact .nil
  | cons r rs ih =>
    intro xs l h
    rw [toolboxIgtsW] at h
    split at h
    · next key hk =>
      cases hm : makeIgtW o key r with
      | mk l1 x =>
        rw [hm] at h
        cases x with
        | error e => cases h
        | ok x =>
          simp only at h
          cases hr : toolboxIgtsW o k rs with
          | mk l2 ys =>
            rw [hr] at h
            cases ys with
            | error e => cases h
            | ok ys =>
              cases h
              obtain ⟨i, ws, h1, h2, h3⟩ := C172_record o key r l1 x hm
              exact .record hk h1 h2 h3 (ih ys l2 hr)
    · next hk => exact .header (fun key hkey => hk key hkey) (ih xs l h)

/-- **C172**: if the import stops, what was passed on is of the records before the one that stops it. -/
theorem C172_stopped (o : Opts) (k : Str) : ∀ (rs : List RecordW) (e : PyErr) (l : List Warning), toolboxIgtsW o k rs = (l, .error e) →
    ∃ a r b xs, rs = a ++ r :: b ∧ Warned o k a xs l ∧ ∃ key, Dict.get? r.context k = some (some key) ∧ (makeIgtW o key r).2 = .error e := by
  intro rs
  induction rs with
  | nil => intro e l h; cases h
  | cons r rs ih =>
    intro e l h
    rw [toolboxIgtsW] at h
    split at h
    · next key hk =>
      cases hm : makeIgtW o key r with
      | mk l1 x =>
        rw [hm] at h
        cases x with
        | error e' =>
          cases h
          rw [C172_stopping o key r _ _ hm]
          exact ⟨[], r, rs, [], rfl, .nil, key, hk, by rw [hm]⟩
        | ok x =>
          simp only at h
          cases hr : toolboxIgtsW o k rs with
          | mk l2 ys =>
            rw [hr] at h
            cases ys with
            | ok ys => cases h
            | error e' =>
              cases h
              obtain ⟨i, ws, h1, h2, h3⟩ := C172_record o key r l1 x hm
              obtain ⟨a, r', b, xs, g1, g2, g3⟩ := ih _ l2 hr
              exact ⟨r :: a, r', b, _, by rw [g1]; rfl, .record hk h1 h2 h3 g2, g3⟩
    · next hk =>
      obtain ⟨a, r', b, xs, g1, g2, g3⟩ := ih e l h
      exact ⟨r :: a, r', b, xs, by rw [g1]; rfl, .header (fun key hkey => hk key hkey) g2, g3⟩

theorem Warned.mem {o : Opts} {k : Str} {rs : List RecordW} {xs : List Obj} {l : List Warning} (h : Warned o k rs xs l) {w : Warning} (hw : w ∈ l) :
    ∃ r ∈ rs, ∃ key i x ws, Dict.get? r.context k = some (some key) ∧ IsIgtId key i ∧ Issued o r x ws ∧ FirstOf i ws [w] ∧ ∀ g, x = some g → g ∈ xs := by
  induction h with
  | nil => cases hw
  | header _ _ ih =>
    obtain ⟨r, hr, h⟩ := ih hw
    exact ⟨r, List.mem_cons_of_mem _ hr, h⟩
  | record hk hi hs hf _ ih =>
    rcases List.mem_append.1 hw with hw | hw
    · refine ⟨_, List.mem_cons_self .., _, _, _, _, hk, hi, hs, ?_, fun g hg => ?_⟩
      · cases hf with
        | none => cases hw
        | toolbox => rw [List.mem_singleton.1 hw]; exact .toolbox
        | other => rw [List.mem_singleton.1 hw]; exact .other
      · subst hg; simp
    · obtain ⟨r, hr, key, i, x, ws, h1, h2, h3, h4, h5⟩ := ih hw
      exact ⟨r, List.mem_cons_of_mem _ hr, key, i, x, ws, h1, h2, h3, h4, fun g hg => List.mem_append_right _ (h5 g hg)⟩

/-- **C172**: there are not more warnings than records with a key. -/
theorem C172_count (o : Opts) (k : Str) (rs : List RecordW) (xs : List Obj) (l : List Warning) (h : Warned o k rs xs l) :
    l.length ≤ (rs.filter fun r => match Dict.get? r.context k with | some (some _) => true | _ => false).length := by
  induction h with
  | nil => exact Nat.le_refl _
  | header hk _ ih => exact Nat.le_trans ih (List.Sublist.length_le ((List.sublist_cons_self ..).filter _))
  | record hk _ _ hf _ ih =>
    rw [List.filter_cons, hk]
    simp only [if_true, List.length_cons, List.length_append]
    cases hf <;> simp <;> omega

end

section
variable [Uni] [XmlLex] [Lex]

/-- **C172**: with tier IDs that do not end in a digit and usable records, every warning passed on begins with the identifier of a record with a
key, and the toolbox module issued it. -/
theorem C172_named (o : Opts) (k : Str) (ho : OptsOK o) (hid : TierIds o) (rs : List RecordW) (hr : ∀ r ∈ rs, RecordOK o k r.plain) (xs : List Obj)
    (l : List Warning) (h : toolboxIgtsW o k rs = (l, .ok xs)) :
    ∀ w ∈ l, ∃ r ∈ rs, ∃ key i t, Dict.get? r.context k = some (some key) ∧ IsIgtId key i ∧ t ∈ r.fields.flatMap Prod.fst ++ r.after ∧
      w = ⟨true, i ++ lit! ": " ++ t⟩ := by
  intro w hw
  obtain ⟨r, hr', key, i, x, ws, h1, h2, h3, h4, h5⟩ := (C172_partial o k rs xs l h).mem hw
  have hsame : toolboxIgts o k (rs.map RecordW.plain) = .ok xs := by rw [← C172_same, h]
  have hun : ∀ g ∈ xs, refreshWarnings { igt := g } = [] := fun g hg =>
    (C170_unwarned o k ho hid (rs.map RecordW.plain) (by
      intro r0 h0
      obtain ⟨r1, h1, rfl⟩ := List.mem_map.1 h0
      exact hr r1 h1) xs hsame g hg).2
  refine ⟨r, hr', key, i, ?_⟩
  cases h3 with
  | igt _ =>
    rw [hun _ (h5 _ rfl), List.map_nil, List.append_nil] at h4
    generalize hz : r.fields.flatMap Prod.fst ++ r.after = z at h4 ⊢
    cases z with
    | nil => cases h4
    | cons t z =>
      cases h4
      exact ⟨t, h1, h2, List.mem_cons_self .., rfl⟩
  | @out a f b e1 _ _ =>
    have hsub : ∀ t ∈ (a ++ [f]).flatMap Prod.fst, t ∈ r.fields.flatMap Prod.fst ++ r.after := by
      intro t ht
      rw [e1]
      simp only [List.flatMap_append, List.flatMap_cons, List.flatMap_nil, List.append_nil, List.mem_append] at ht ⊢
      rcases ht with ht | ht
      · exact .inl (.inl ht)
      · exact .inl (.inr (.inl ht))
    generalize (a ++ [f]).flatMap Prod.fst = z at h4 hsub
    cases z with
    | nil => cases h4
    | cons t z =>
      cases h4
      exact ⟨t, h1, h2, hsub t (List.mem_cons_self ..), rfl⟩

end

section
attribute [local instance] asciiUni asciiXml Tbx.asciiLex

/-- a record of one word, two things warned of -/
def twice : RecordW := ⟨[(lit! "\\ref", some (lit! "7"))], [], [([lit! "one"], .ok (lit! "\\t", [(some (lit! "inu"), some [lit! "inu"])]))], [lit! "two"]⟩

/-- the hypotheses of `C172_named` are met, and a warning is passed on -/
example : OptsOK defaults ∧ TierIds defaults ∧ RecordOK defaults (lit! "\\ref") twice.plain ∧
    (toolboxIgtsW defaults (lit! "\\ref") [twice]).1 = [⟨true, lit! "igt7: one"⟩] ∧ ∃ xs, (toolboxIgtsW defaults (lit! "\\ref") [twice]).2 = .ok xs :=
  ⟨defaults_ok, defaults_tierIds, oneWord_ok, by decide +kernel, _, rfl⟩

/-- a record that is left out: what was warned of before is passed on -/
example : ∃ r, makeIgtW defaults (lit! "7") r = ([⟨true, lit! "igt7: one"⟩], .ok none) :=
  ⟨⟨[], [], [([], .ok (lit! "\\t", [(some (lit! "inu"), some [lit! "inu"])])), ([lit! "one"], .error .xigtImportError), ([lit! "two"], .error .typeError)], []⟩, rfl⟩

/-- **C172** is false as stated: a second warning of the same record is lost. -/
theorem C172_refuted_second : ∃ o k r xs ws, toolboxIgtsW o k [r] = ([⟨true, lit! "igt7: one"⟩], .ok xs) ∧ (∃ x ∈ xs, Issued o r (some x) ws) ∧
    ws = [⟨true, lit! "one"⟩, ⟨true, lit! "two"⟩] := by
  refine ⟨defaults, lit! "\\ref", twice, _, _, rfl, ⟨_, List.mem_cons_self .., .igt ⟨_, rfl⟩⟩, by decide +kernel⟩

/-- **C172** is false as stated: the warnings of the record that stops the import are lost. -/
theorem C172_refuted_stopped : ∃ o k r, toolboxIgtsW o k [r] = ([], .error .typeError) ∧ r.fields.flatMap Prod.fst = [lit! "one"] := by
  refine ⟨defaults, lit! "\\ref", ⟨[(lit! "\\ref", some (lit! "7"))], [], [([lit! "one"], .error .typeError)], []⟩, rfl, rfl⟩

/-- **C172** is false as stated: a warning of the Igt does not tell which IGT it is. -/
theorem C172_refuted_unnamed : ∃ o k r xs, toolboxIgtsW o k [r] = ([⟨false, lit! "Item \"a11\" already exists in Igt."⟩], .ok xs) ∧
    Dict.get? r.context k = some (some (lit! "7")) := by
  have h : (toolboxIgtsW numbered (lit! "\\ref") [⟨eleven.context, eleven.data, eleven.fields.map fun f => ([], f), []⟩]).1 =
      [⟨false, lit! "Item \"a11\" already exists in Igt."⟩] := by decide +kernel
  refine ⟨numbered, lit! "\\ref", ⟨eleven.context, eleven.data, eleven.fields.map fun f => ([], f), []⟩, _, Prod.ext h rfl, rfl⟩

end
end Xigt.Tbx
