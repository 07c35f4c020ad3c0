import Verif.Import.ToolboxTotal
import Verif.Files.Log
/-
C168: what the Toolbox importer logs: /repo/xigt/importers/toolbox.py:188-191, with the level of
/repo/xigt/scripts/xigt_import.py:22-24, 37.

Of a message the first line is modelled; the second is the text of the exception.
-/
set_option linter.unusedSectionVars false

namespace Xigt.Tbx

open Files (Msg Level logLines)

section
variable [Uni] [Lex]

/-! ### Model -/

/-- toolbox.py:189-190 `logging.error('Error during import of item {}:\n  {}'.format(key, str(ex)))`, the first line -/
def leftOut (i : Str) : Msg := ⟨.error, lit! "Error during import of item " ++ i ++ lit! ":"⟩

/-- toolbox.py:160-201 `make_igt` with its messages -/
def makeIgtL (o : Opts) (key : Str) (data context : List (Str × Option Str)) (fields : List (Py Field)) : List Msg × Py (Option Obj) :=
  match igtId key with
  | .error e => ([], .error e)
  | .ok i =>
    if idAccepted i = false then ([], .error .valueError)
    else
      match makeAllTiers o fields [] [] with
      | .ok ts => ([], .ok (some (.mk { cls := .igt, id := some i, attrs := igtAttrs o (data ++ context) } [] ts)))
      | .error .xigtImportError => ([leftOut i], .ok none)
      | .error e => ([], .error e)

/-- toolbox.py:145-158 `toolbox_igts` with its messages, up to its end or an exception -/
def toolboxIgtsL (o : Opts) (k : Str) : List Record → List Msg × Py (List Obj)
  | [] => ([], .ok [])
  | r :: rs =>
    match Dict.get? r.context k with
    | some (some key) =>
      match makeIgtL o key r.data r.context r.fields with
      | (l, .error e) => (l, .error e)
      | (l, .ok x) =>
        match toolboxIgtsL o k rs with
        | (l', .error e) => (l ++ l', .error e)
        | (l', .ok xs) => (l ++ l', .ok (x.toList ++ xs))
    | _ => toolboxIgtsL o k rs

/-! ### Specification -/

/-- every record with a key is an IGT, or is in the log, under the identifier it would have had; both in the order of the records -/
inductive Accounted (o : Opts) (k : Str) : List Record → List Obj → List Str → Prop
  | nil : Accounted o k [] [] []
  | header {r rs xs l} : (∀ key, Dict.get? r.context k ≠ some (some key)) → Accounted o k rs xs l → Accounted o k (r :: rs) xs l
  | out {r rs key i xs l} : Dict.get? r.context k = some (some key) → IsIgtId key i → ¬ RecordFits o r.fields → Unusable o r.fields →
      Accounted o k rs xs l → Accounted o k (r :: rs) xs (i :: l)
  | igt {r rs key x xs l} : Dict.get? r.context k = some (some key) → RecordFits o r.fields → IsIgt o key r x →
      Accounted o k rs xs l → Accounted o k (r :: rs) (x :: xs) l

/-! ### Properties -/

theorem makeIgtL_same (o : Opts) (key : Str) (data ctx : List (Str × Option Str)) (fs : List (Py Field)) :
    (makeIgtL o key data ctx fs).2 = makeIgt o key data ctx fs := by
  unfold makeIgtL makeIgt
  simp only [bind, Except.bind]
  cases igtId key with
  | error e => rfl
  | ok i =>
    simp only
    by_cases h : idAccepted i = false
    · rw [if_pos h, if_pos h]
    · rw [if_neg h, if_neg h]
      cases makeAllTiers o fs [] [] with
      | ok ts => rfl
      | error e => cases e <;> rfl

/-- **C168**: the log changes nothing. -/
theorem C168_same (o : Opts) (k : Str) (rs : List Record) : (toolboxIgtsL o k rs).2 = toolboxIgts o k rs := by
  induction rs with
  | nil => rfl
  | cons r rs ih =>
    cases hk : Dict.get? r.context k with
    | none => simp only [toolboxIgtsL, toolboxIgts, hk]; exact ih
    | some key =>
      cases key with
      | none => simp only [toolboxIgtsL, toolboxIgts, hk]; exact ih
      | some key =>
        simp only [toolboxIgtsL, toolboxIgts, hk]
        rw [← makeIgtL_same, ← ih]
        simp only [bind, Except.bind]
        cases makeIgtL o key r.data r.context r.fields with
        | mk l x =>
          cases x with
          | error e => rfl
          | ok x =>
            simp only
            cases toolboxIgtsL o k rs with
            | mk l' xs => cases xs <;> rfl

theorem isIgtId_of {key i : Str} (hi : igtId key = .ok i) : IsIgtId key i := by
  cases key with
  | nil => cases hi
  | cons c cs =>
    simp only [igtId, Except.ok.injEq] at hi
    refine ⟨c, cs, rfl, ?_⟩
    cases hc : Lex.isAlpha c with
    | true => left; rw [hc] at hi; exact ⟨rfl, hi.symm⟩
    | false => right; rw [hc] at hi; exact ⟨rfl, hi.symm⟩

/-- one record: it is imported and nothing is logged, or left out and its identifier is logged, or there is an exception and nothing is logged -/
theorem makeIgtL_cases (o : Opts) (k key : Str) (r : Record) (hk : Dict.get? r.context k = some (some key)) :
    (∃ x, makeIgtL o key r.data r.context r.fields = ([], .ok (some x)) ∧ RecordFits o r.fields ∧ IsIgt o key r x) ∨
    (∃ i, makeIgtL o key r.data r.context r.fields = ([leftOut i], .ok none) ∧ IsIgtId key i ∧ ¬ RecordFits o r.fields ∧ Unusable o r.fields) ∨
    (∃ e, makeIgtL o key r.data r.context r.fields = ([], .error e)) := by
  have hsame := makeIgtL_same o key r.data r.context r.fields
  cases hm : makeIgtL o key r.data r.context r.fields with
  | mk l x =>
    rw [hm] at hsame
    simp only at hsame
    have hl : ∀ i, igtId key = .ok i → idAccepted i = true → makeAllTiers o r.fields [] [] = .error .xigtImportError → l = [leftOut i] ∧ x = .ok none := by
      intro i h1 h2 h3
      simp only [makeIgtL, h1, h2, h3] at hm
      simp at hm
      exact ⟨hm.1.symm, hm.2.symm⟩
    cases x with
    | error e =>
      right; right
      refine ⟨e, ?_⟩
      have : l = [] := by
        unfold makeIgtL at hm
        split at hm
        · cases hm; rfl
        · split at hm
          · cases hm; rfl
          · split at hm
            · cases hm
            · cases hm
            · cases hm; rfl
      rw [this]
    | ok x =>
      cases x with
      | some x =>
        left
        refine ⟨x, ?_, ((C167_record o key _ _ _).1 ⟨x, hsame.symm⟩).2, ?_⟩
        · have : l = [] := by
            unfold makeIgtL at hm
            split at hm
            · cases hm
            · split at hm
              · cases hm
              · split at hm
                · cases hm; rfl
                · cases hm
                · cases hm
          rw [this]
        · have hone : toolboxIgts o k [r] = .ok [x] := by simp [toolboxIgts, hk, ← hsame, bind, Except.bind]
          have := C92_igts o k [r] [x] hone
          cases this with
          | header _ hh => cases hh
          | unusable _ _ hh => cases hh
          | igt hk' hi _ =>
            rw [hk] at hk'
            cases hk'
            exact hi
      | none =>
        right; left
        have hun := C92_dropped o key _ _ _ hsame.symm
        unfold makeIgtL at hm
        split at hm
        · cases hm
        · next i hi =>
          split at hm
          · cases hm
          · split at hm
            · cases hm
            · next he =>
              cases hm
              refine ⟨i, rfl, isIgtId_of hi, ?_, hun⟩
              intro hf
              obtain ⟨ts, hts⟩ := (C167_tiers o r.fields).2 hf
              rw [hts] at he
              cases he
            · cases hm

/-- **C168**: if importing finishes, every record with a key is an IGT, or is in the log by the identifier it would have had, in the order of the records. -/
theorem C168_accounts (o : Opts) (k : Str) : ∀ (rs : List Record) (xs : List Obj) (l : List Msg), toolboxIgtsL o k rs = (l, .ok xs) →
    ∃ is, l = is.map leftOut ∧ Accounted o k rs xs is := by
  intro rs
  induction rs with
  | nil => intro xs l h; cases h; exact ⟨[], rfl, .nil⟩
  | cons r rs ih =>
    intro xs l h
    rw [toolboxIgtsL] at h
    split at h
    · next key hk =>
      rcases makeIgtL_cases o k key r hk with ⟨x, hx, hf, hi⟩ | ⟨i, hx, hi, hn, hu⟩ | ⟨e, hx⟩
      · rw [hx] at h
        simp only at h
        cases hr : toolboxIgtsL o k rs with
        | mk l' ys =>
          rw [hr] at h
          cases ys with
          | error e => cases h
          | ok ys =>
            cases h
            obtain ⟨is, e, ha⟩ := ih ys l' hr
            exact ⟨is, by simpa using e, .igt hk hf hi ha⟩
      · rw [hx] at h
        simp only at h
        cases hr : toolboxIgtsL o k rs with
        | mk l' ys =>
          rw [hr] at h
          cases ys with
          | error e => cases h
          | ok ys =>
            cases h
            obtain ⟨is, e, ha⟩ := ih ys l' hr
            exact ⟨i :: is, by simp [e], .out hk hi hn hu ha⟩
      · rw [hx] at h; cases h
    · next hk =>
      obtain ⟨is, e, ha⟩ := ih xs l h
      exact ⟨is, e, .header (fun key hh => hk key hh) ha⟩

/-- **C168**: if importing does not finish, the log is that of the records before the one with the exception. -/
theorem C168_stopped (o : Opts) (k : Str) : ∀ (rs : List Record) (e : PyErr) (l : List Msg), toolboxIgtsL o k rs = (l, .error e) →
    ∃ pre r post xs, rs = pre ++ r :: post ∧ toolboxIgtsL o k pre = (l, .ok xs) ∧ toolboxIgts o k [r] = .error e := by
  intro rs
  induction rs with
  | nil => intro e l h; cases h
  | cons r rs ih =>
    intro e l h
    rw [toolboxIgtsL] at h
    split at h
    · next key hk =>
      have one : ∀ l' e', makeIgtL o key r.data r.context r.fields = (l', .error e') → toolboxIgts o k [r] = .error e' := by
        intro l' e' hh
        have := makeIgtL_same o key r.data r.context r.fields
        rw [hh] at this
        simp [toolboxIgts, hk, ← this, bind, Except.bind]
      cases hx : makeIgtL o key r.data r.context r.fields with
      | mk l1 x =>
        rw [hx] at h
        cases x with
        | error e' =>
          cases h
          have hl : l = [] := by
            rcases makeIgtL_cases o k key r hk with ⟨x, hx', _⟩ | ⟨i, hx', _⟩ | ⟨e'', hx'⟩
            · rw [hx] at hx'; cases hx'
            · rw [hx] at hx'; cases hx'
            · rw [hx] at hx'; cases hx'; rfl
          exact ⟨[], r, rs, [], rfl, by rw [hl]; rfl, one _ _ hx⟩
        | ok x =>
          simp only at h
          cases hr : toolboxIgtsL o k rs with
          | mk l' ys =>
            rw [hr] at h
            cases ys with
            | ok ys => cases h
            | error e' =>
              cases h
              obtain ⟨pre, r', post, xs, rfl, hp, hone⟩ := ih e l' hr
              refine ⟨r :: pre, r', post, x.toList ++ xs, rfl, ?_, hone⟩
              simp only [toolboxIgtsL, hk, hx, hp]
    · next hk =>
      obtain ⟨pre, r', post, xs, rfl, hp, hone⟩ := ih e l h
      refine ⟨r :: pre, r', post, xs, rfl, ?_, hone⟩
      rw [toolboxIgtsL]
      split
      · next key hk' => exact (hk key hk').elim
      · exact hp

theorem Accounted.count {o : Opts} {k : Str} {rs : List Record} {xs : List Obj} {l : List Str} (h : Accounted o k rs xs l) :
    xs.length + l.length = (keyed k rs).length := by
  induction h with
  | nil => rfl
  | @header r rs xs l hk _ ih =>
    have : keyed k (r :: rs) = keyed k rs := by
      unfold keyed
      rw [List.filterMap_cons_none]
      split
      · next key hh => exact (hk key hh).elim
      · rfl
    rw [this]; exact ih
  | out hk _ _ _ _ ih => simp only [List.length_cons]; simp [keyed, hk] at ih ⊢; omega
  | igt hk _ _ _ ih => simp only [List.length_cons]; simp [keyed, hk] at ih ⊢; omega

/-- **C168**: with the verbosity of `xigt import` (at least 2) there is one line for each message; the IGTs and the lines of the log are as many as the records with a key. -/
theorem C168_count (o : Opts) (k : Str) (rs : List Record) (xs : List Obj) (l : List Msg) (h : toolboxIgtsL o k rs = (l, .ok xs)) (v : Nat) :
    ∃ is : List Str, logLines (2 + v) l = is.map (fun i => lit! "ERROR:root:Error during import of item " ++ i ++ lit! ":") ∧
      xs.length + is.length = (keyed k rs).length := by
  obtain ⟨is, rfl, ha⟩ := C168_accounts o k rs xs l h
  refine ⟨is, ?_, ha.count⟩
  have hlev : (50 - ((2 + v : Nat) : Int) * 10 ≤ Level.error.num) := by simp only [Level.num]; omega
  unfold logLines
  rw [List.filter_eq_self.2]
  · rw [List.map_map]
    rfl
  · intro m hm
    obtain ⟨i, _, rfl⟩ := List.mem_map.1 hm
    exact decide_eq_true hlev

/-- **C168**: importing finishes without a message exactly if all records with a key fit and their keys make identifiers. -/
theorem C168_quiet (o : Opts) (k : Str) (rs : List Record) : (∃ xs, toolboxIgtsL o k rs = ([], .ok xs)) ↔
    ∀ p ∈ keyed k rs, (∃ i, IsIgtId p.1 i ∧ Lettered i) ∧ RecordFits o p.2.fields := by
  constructor
  · rintro ⟨xs, h⟩ p hp
    have hfin : toolboxIgts o k rs = .ok xs := by rw [← C168_same, h]
    obtain ⟨is, e, ha⟩ := C168_accounts o k rs xs [] h
    have : is = [] := by cases is with | nil => rfl | cons i is => cases e
    subst this
    have hfit : ∀ {rs : List Record} {xs : List Obj} {l : List Str}, Accounted o k rs xs l → l = [] → ∀ p ∈ keyed k rs, RecordFits o p.2.fields := by
      intro rs xs l ha
      induction ha with
      | nil => intro _ p hp; cases hp
      | @header r rs xs l hk _ ih =>
        intro hl p hp
        have : keyed k (r :: rs) = keyed k rs := by
          unfold keyed
          rw [List.filterMap_cons_none]
          split
          · next key hh => exact (hk key hh).elim
          · rfl
        rw [this] at hp
        exact ih hl p hp
      | out => intro hl; cases hl
      | @igt r rs key x xs l hk hf _ _ ih =>
        intro hl p hp
        have : keyed k (r :: rs) = (key, r) :: keyed k rs := by simp [keyed, hk]
        rw [this] at hp
        rcases List.mem_cons.1 hp with rfl | hp
        · exact hf
        · exact ih hl p hp
    have hf := hfit ha rfl p hp
    refine ⟨?_, hf⟩
    apply Classical.byContradiction
    intro hno
    -- the key makes no identifier: an exception
    obtain ⟨r, hr, hk⟩ := List.mem_filterMap.1 hp
    obtain ⟨pre, post, rfl⟩ := List.append_of_mem hr
    cases hk' : Dict.get? r.context k with
    | none => rw [hk'] at hk; cases hk
    | some key =>
      cases key with
      | none => rw [hk'] at hk; cases hk
      | some key =>
        rw [hk'] at hk
        cases hk
        have hmk : ∀ x, makeIgt o key r.data r.context r.fields ≠ .ok x := by
          intro x hx
          simp only [makeIgt, bind, Except.bind] at hx
          split at hx
          · cases hx
          · next i hi =>
            split at hx
            · cases hx
            · next ha' => exact hno ⟨i, isIgtId_of hi, lettered_iff.1 (by simpa using ha')⟩
        rw [C167_append] at hfin
        simp only [bind, Except.bind] at hfin
        split at hfin
        · cases hfin
        · simp only [toolboxIgts, hk', bind, Except.bind] at hfin
          cases hx : makeIgt o key r.data r.context r.fields with
          | error e => rw [hx] at hfin; cases hfin
          | ok x => exact hmk x hx
  · intro h
    obtain ⟨xs, hxs, hall⟩ := C167_all o k rs h
    have hlen : ∀ {a : List (Str × Record)} {b : List Obj}, All2 (fun p x => IsIgt o p.1 p.2 x) a b → a.length = b.length := by
      intro a b hh
      induction hh with
      | nil => rfl
      | cons _ _ ih => simp [ih]
    refine ⟨xs, ?_⟩
    cases hl : toolboxIgtsL o k rs with
    | mk l y =>
      have hs := C168_same o k rs
      rw [hl, hxs] at hs
      simp only at hs
      subst hs
      obtain ⟨is, rfl, ha⟩ := C168_accounts o k rs xs l hl
      have := ha.count
      have := hlen hall
      have : is = [] := List.length_eq_zero_iff.1 (by omega)
      subst this
      rfl

end

/-! ### Examples -/
section
attribute [local instance] asciiUni asciiLex

/-- a record that Toolbox could not align, and one that is imported -/
example : ∃ x, toolboxIgtsL defaults (lit! "\\ref") [{ twoFree with fields := [.error .xigtImportError] }, goodRecord] = ([leftOut (lit! "igt1")], .ok [x]) ∧
    logLines 2 [leftOut (lit! "igt1")] = [lit! "ERROR:root:Error during import of item igt1:"] := ⟨_, rfl, by decide +kernel⟩

/-- C168 refuted: a record that ends the import is not named in the log -/
theorem C168_refuted : toolboxIgtsL defaults (lit! "\\ref") [goodRecord, twoFree] = ([], .error .xigtError) := rfl

end
end Xigt.Tbx
