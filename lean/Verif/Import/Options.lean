import Verif.Files.ImportProps
import Verif.Import.ToolboxMarkers
/-
C141: the configuration of the importers: /repo/scripts/xigt_import.py:7-19, /repo/xigt/importers/toolbox.py:5-38,
65-142, /repo/xigt/importers/odin.py:6-11, 48-56.

The text of a configuration file is read by `json.load`, which is a parameter.
-/
set_option linter.unusedSectionVars false

namespace Xigt.Opt

open Xigt.Files Xigt.Tbx

/-! ### Model -/

/-- what `json.load` makes; numbers that are no integers are left out -/
inductive V where
  | null
  | bool (b : Bool)
  | num (n : Int)
  | str (s : Str)
  | arr (l : List V)
  | obj (d : List (Str × V))

/-- `bool(v)` -/
def V.truthy : V → Bool
  | .null => false
  | .bool b => b
  | .num n => decide (n ≠ 0)
  | .str s => !s.isEmpty
  | .arr l => !l.isEmpty
  | .obj d => !d.isEmpty

/-- lists and dicts have no hash, so looking them up in a dict is a TypeError -/
def V.hashable : V → Bool
  | .arr _ => false
  | .obj _ => false
  | _ => true

/-- `o.setdefault(k, v)` -/
def setDefault (o : Dict Str V) (k : Str) (v : V) : Dict Str V := if Dict.has o k then o else Dict.set o k v

/-- toolbox.py:114 -/
def RM : Str := lit! "record_markers"
/-- toolbox.py:115 -/
def AM : Str := lit! "igt_attribute_map"
/-- toolbox.py:116 -/
def TM : Str := lit! "tier_map"
/-- toolbox.py:117 -/
def MP : Str := lit! "make_phrase_tier"
/-- toolbox.py:118 -/
def TT : Str := lit! "tier_types"
/-- toolbox.py:119 -/
def AL : Str := lit! "alignments"
/-- toolbox.py:120 -/
def ER : Str := lit! "error_recovery_method"
/-- toolbox.py:123 -/
def TB : Str := lit! "tb_alignments"
/-- toolbox.py:225 -/
def TYPE : Str := lit! "type"
/-- toolbox.py:135 -/
def INTER : Str := lit! "interlinear"

/-- toolbox.py:65-68 -/
def dRM : V := .arr [.str (lit! "\\id"), .str (lit! "\\ref")]

/-- toolbox.py:70-72 -/
def dAM : V := .obj [(lit! "\\id", .str (lit! "corpus-id"))]

/-- toolbox.py:74-80 -/
def dTM : V := .obj [(lit! "\\t", .str (lit! "w")), (lit! "\\m", .str (lit! "m")), (lit! "\\g", .str (lit! "g")),
  (lit! "\\p", .str (lit! "pos")), (lit! "\\f", .str (lit! "t"))]

/-- toolbox.py:83 -/
def dMP : V := .arr [.str (lit! "w"), .str (lit! "p")]

/-- a dict as in toolbox.py:87 -/
def il (t : Str) : V := .obj [(TYPE, .str t), (INTER, .bool true)]

/-- toolbox.py:85-92 -/
def dTT : V := .obj [(lit! "p", .obj [(TYPE, .str (lit! "phrases"))]), (lit! "w", il (lit! "words")),
  (lit! "m", il (lit! "morphemes")), (lit! "g", il (lit! "glosses")), (lit! "pos", il (lit! "pos")),
  (lit! "t", .obj [(TYPE, .str (lit! "translations"))])]

/-- a list as in toolbox.py:96 -/
def al2 (r t : Str) : V := .arr [.str r, .str t]

/-- toolbox.py:95-101 -/
def dAL : V := .obj [(lit! "w", al2 (lit! "segmentation") (lit! "p")), (lit! "m", al2 (lit! "segmentation") (lit! "w")),
  (lit! "g", al2 (lit! "alignment") (lit! "m")), (lit! "pos", al2 (lit! "alignment") (lit! "m")),
  (lit! "t", al2 (lit! "alignment") (lit! "p"))]

/-- toolbox.py:114-120 -/
def prepare (o : Dict Str V) : Dict Str V :=
  let o := setDefault o RM dRM
  let o := setDefault o AM dAM
  let o := setDefault o TM dTM
  let o := setDefault o MP dMP
  let o := setDefault o TT dTT
  let o := setDefault o AL dAL
  setDefault o ER (.str (lit! "ratio"))

/-- `v.items()`: of other things than dicts it is an AttributeError -/
def V.items : V → Py (List (Str × V))
  | .obj d => .ok d
  | _ => .error .attributeError

/-- toolbox.py:134; only strings are looked up in it, so other keys are left out -/
def invAll : List (Str × V) → Dict Str Str → Py (Dict Str Str)
  | [], acc => .ok acc
  | (m, v) :: r, acc => match v with
    | .str t => invAll r (Dict.set acc t m)
    | v => if v.hashable then invAll r acc else .error .typeError

/-- toolbox.py:135-136 (the keys of a dict are distinct); only whether the values are true is of interest -/
def interAll : List (Str × V) → Py (Dict Str Bool)
  | [] => .ok []
  | (t, v) :: r => match v with
    | .obj d => do
      let l ← interAll r
      .ok ((t, ((Dict.get? d INTER).map V.truthy).getD false) :: l)
    | _ => .error .attributeError

/-- toolbox.py:139 `refattr, t2 = aln` -/
def unpack2 : V → Py (V × V)
  | .arr [a, b] => .ok (a, b)
  | .arr _ => .error .valueError
  | .str [a, b] => .ok (.str [a], .str [b])
  | .str _ => .error .valueError
  | .obj [(a, _), (b, _)] => .ok (.str a, .str b)
  | .obj _ => .error .valueError
  | _ => .error .typeError

/-- `interlinear.get(t2, False)`, and `t2` if it is true -/
def partner (il : Dict Str Bool) : V → Py (Option Str)
  | .str t => .ok (if interl il t then some t else none)
  | v => if v.hashable then .ok none else .error .typeError

/-- toolbox.py:137-142 -/
def tbLoopV (inv : Dict Str Str) (il : Dict Str Bool) : Dict Str Str → List (Str × V) → Py (Dict Str Str)
  | acc, [] => .ok acc
  | acc, (t1, aln) :: rest => do
    let p ← unpack2 aln
    let q ← if interl il t1 then partner il p.2 else .ok none
    match q with
    | some t2 => do
      let m2 ← Dict.getItem inv t2
      let m1 ← Dict.getItem inv t1
      tbLoopV inv il (Dict.set acc m1 m2) rest
    | none => tbLoopV inv il acc rest

/-- toolbox.py:133-142 `_make_tb_alignments`, for options of any kind -/
def makeTb (o : Dict Str V) : Py (Dict Str Str) := do
  let tm ← (← Dict.getItem o TM).items
  let inv ← invAll tm []
  let tt ← (← Dict.getItem o TT).items
  let il ← interAll tt
  let al ← (← Dict.getItem o AL).items
  tbLoopV inv il [] al

/-- toolbox.py:112-113: `null` is None; `setdefault` is a method of dicts only -/
def optionsOf : V → Py (Dict Str V)
  | .null => .ok []
  | .obj d => .ok d
  | _ => .error .attributeError

/-- toolbox.py:123 -/
def addTb (o : Dict Str V) (tb : Dict Str Str) : Dict Str V :=
  Dict.set o TB (.obj (tb.map fun p => (p.1, .str p.2)))

/-- toolbox.py:112-123: the options after it -/
def toolboxOptions (v : V) : Py (Dict Str V) := do
  let d ← optionsOf v
  let tb ← makeTb (prepare d)
  .ok (addTb (prepare d) tb)

/-- odin.py:52 -/
def SUF : Str := lit! "input_file_suffix"
/-- odin.py:53 -/
def REP : Str := lit! "replacement_char"
/-- odin.py:56 -/
def KH : Str := lit! "keep_headers"

/-- odin.py:50-56 -/
def odinOptions (v : V) : Py (Dict Str V) := do
  let o ← optionsOf v
  let o := setDefault o SUF (.str (lit! ".txt"))
  let o := setDefault o REP (.str ['�'])
  .ok (setDefault o KH (.bool false))

/-- xigt_import.py:17-18: `load` is `json.load` -/
def readConfig (load : Str → Py V) : Option Str → Act V
  | none => pure .null
  | some path => do
    let t ← readFile path
    lift (load t)

/-- xigt_import.py:7-19 and toolbox.py:110-130; `imp` makes the text of the options and a text -/
def runToolbox (load : Str → Py V) (imp : Dict Str V → Str → Py Str) (config : Option Str) (infile outfile : Str) : Act Unit := do
  let v ← readConfig load config
  let o ← lift (toolboxOptions v)
  importFile (imp o) infile outfile

/-! ### Reading options of the right kind -/

/-- a string -/
def V.str? : V → Option Str
  | .str s => some s
  | _ => none

/-- strings only -/
def strs? : List V → Option (List Str)
  | [] => some []
  | v :: l => do
    let s ← v.str?
    let r ← strs? l
    some (s :: r)

/-- a dict whose values are read by `f` -/
def vals? {α : Type} (f : V → Option α) : List (Str × V) → Option (Dict Str α)
  | [] => some []
  | (k, v) :: l => do
    let a ← f v
    let r ← vals? f l
    some ((k, a) :: r)

/-- a list of strings, as the markers of toolbox.py:147 -/
def V.strs? : V → Option (List Str)
  | .arr l => Opt.strs? l
  | _ => none

/-- a dict whose values are read by `f` -/
def V.dict? {α : Type} (f : V → Option α) : V → Option (Dict Str α)
  | .obj d => vals? f d
  | _ => none

/-- toolbox.py:221-224: two strings, or something false -/
def V.phrase? (v : V) : Option (Option (Str × Str)) :=
  if v.truthy then match v with
    | .arr (.str a :: .str b :: _) => some (some (a, b))
    | _ => none
  else some none

/-- toolbox.py:225 `.get('type')` -/
def V.type? : V → Option (Option Str)
  | .obj d => match Dict.get? d TYPE with
    | none => some none
    | some .null => some none
    | some (.str s) => some (some s)
    | _ => none
  | _ => none

/-- toolbox.py:135 -/
def V.inter? : V → Option Bool
  | .obj d => some (((Dict.get? d INTER).map V.truthy).getD false)
  | _ => none

/-- toolbox.py:226 -/
def V.align? : V → Option (Option Str × Str)
  | .arr [.null, .str t] => some (none, t)
  | .arr [.str r, .str t] => some (some r, t)
  | _ => none

/-- the options as `Tbx.Opts` has them, and which tiers are interlinear; `none` if one is missing or of another kind -/
def readOpts (o : Dict Str V) : Option (Opts × Dict Str Bool) := do
  let rm ← (← Dict.get? o RM).strs?
  let am ← (← Dict.get? o AM).dict? V.str?
  let tm ← (← Dict.get? o TM).dict? V.str?
  let mp ← (← Dict.get? o MP).phrase?
  let tt ← (← Dict.get? o TT).dict? V.type?
  let il ← (← Dict.get? o TT).dict? V.inter?
  let al ← (← Dict.get? o AL).dict? V.align?
  some (⟨rm, am, tm, mp, tt, al⟩, il)

/-- the options as `Odin.Opts` has them, and the suffix -/
def readOdin (o : Dict Str V) : Option (Odin.Opts × Str) := do
  let r ← (← Dict.get? o REP).str?
  let k ← Dict.get? o KH
  let s ← (← Dict.get? o SUF).str?
  some (⟨r, k.truthy⟩, s)

/-! ### Spec -/

/-- the configuration that is said to be the default, toolbox.py:6-38 -/
def documented : Dict Str V := [
  (lit! "record_markers", .arr [.str (lit! "\\id"), .str (lit! "\\ref")]),
  (lit! "igt_attribute_map", .obj [(lit! "\\id", .str (lit! "corpus-id"))]),
  (lit! "tier_map", .obj [(lit! "\\t", .str (lit! "w")), (lit! "\\m", .str (lit! "m")), (lit! "\\g", .str (lit! "g")),
    (lit! "\\p", .str (lit! "pos")), (lit! "\\f", .str (lit! "t"))]),
  (lit! "make_phrase_tier", .arr [.str (lit! "w"), .str (lit! "p")]),
  (lit! "tier_types", .obj [
    (lit! "p", .obj [(lit! "type", .str (lit! "phrases"))]),
    (lit! "w", .obj [(lit! "type", .str (lit! "words")), (lit! "interlinear", .bool true)]),
    (lit! "m", .obj [(lit! "type", .str (lit! "morphemes")), (lit! "interlinear", .bool true)]),
    (lit! "g", .obj [(lit! "type", .str (lit! "glosses")), (lit! "interlinear", .bool true)]),
    (lit! "pos", .obj [(lit! "type", .str (lit! "pos")), (lit! "interlinear", .bool true)]),
    (lit! "t", .obj [(lit! "type", .str (lit! "translations"))])]),
  (lit! "alignments", .obj [
    (lit! "w", .arr [.str (lit! "segmentation"), .str (lit! "p")]),
    (lit! "m", .arr [.str (lit! "segmentation"), .str (lit! "w")]),
    (lit! "g", .arr [.str (lit! "alignment"), .str (lit! "m")]),
    (lit! "pos", .arr [.str (lit! "alignment"), .str (lit! "m")]),
    (lit! "t", .arr [.str (lit! "alignment"), .str (lit! "p")])]),
  (lit! "error_recovery_method", .str (lit! "ratio"))]

/-- the configuration that is said to be the default, odin.py:7-11 -/
def documentedOdin : Dict Str V := [
  (lit! "input_file_suffix", .str (lit! ".txt")),
  (lit! "replacement_char", .str (lit! "�")),
  (lit! "keep_headers", .bool false)]

/-- the value of an option: the one that is given, otherwise the one that is said to be the default -/
def Uses (doc given : Dict Str V) (k : Str) (v : V) : Prop :=
  Dict.get? given k = some v ∨ Dict.get? given k = none ∧ Dict.get? doc k = some v

/-! ### Lemmas -/

theorem get?_setDefault (o : Dict Str V) (k j : Str) (v : V) :
    Dict.get? (setDefault o k v) j = (Dict.get? o j).or (if k = j then some v else none) := by
  unfold setDefault
  split
  · next h =>
    obtain ⟨w, hw⟩ := (Dict.has_true_iff o k).1 h
    split
    · next e => rw [← e, hw]; rfl
    · rw [Option.or_none]
  · next h =>
    have hn : Dict.get? o k = none := (Dict.has_false_iff o k).1 (by simpa using h)
    rw [Dict.get?_set]
    split
    · next e => rw [← e, hn]; rfl
    · rw [Option.or_none]

theorem or_uses (doc given : Dict Str V) (k : Str) (v : V) :
    (Dict.get? given k).or (Dict.get? doc k) = some v ↔ Uses doc given k v := by
  unfold Uses
  cases Dict.get? given k <;> simp

theorem get?_prepare (o : Dict Str V) (j : Str) : Dict.get? (prepare o) j = (Dict.get? o j).or (Dict.get? documented j) := by
  unfold prepare
  simp only [get?_setDefault, Option.or_assoc]
  congr 1
  unfold documented
  simp only [Dict.get?]
  unfold RM AM TM MP TT AL ER
  repeat' split
  all_goals first | rfl | (rename_i h; exact absurd ‹_› h)

theorem set_same {d : Dict Str V} {k : Str} {v : V} (h : Dict.get? d k = some v) : Dict.set d k v = d := by
  induction d with
  | nil => cases h
  | cons p d ih =>
    obtain ⟨k', v'⟩ := p
    rw [Dict.get?] at h
    rw [Dict.set]
    split
    · next e => rw [if_pos e] at h; cases h; rfl
    · next e => rw [if_neg e] at h; rw [ih h]

theorem makeTb_congr {o o' : Dict Str V} (h1 : Dict.get? o TM = Dict.get? o' TM) (h2 : Dict.get? o TT = Dict.get? o' TT)
    (h3 : Dict.get? o AL = Dict.get? o' AL) : makeTb o = makeTb o' := by
  unfold makeTb Dict.getItem
  rw [h1, h2, h3]

theorem setDefault_has {o : Dict Str V} {k : Str} {v : V} (h : Dict.get? o k ≠ none) : setDefault o k v = o := by
  unfold setDefault
  rw [if_pos]
  cases e : Dict.get? o k with
  | none => exact absurd e h
  | some w => exact (Dict.has_true_iff o k).2 ⟨w, e⟩

theorem prepare_full {o : Dict Str V} (h : ∀ k, Dict.get? documented k ≠ none → Dict.get? o k ≠ none) : prepare o = o := by
  have e : ∀ k, k ∈ Dict.keys documented → ∀ v, setDefault o k v = o := by
    intro k hk v
    exact setDefault_has (h k (by rw [ne_eq, Dict.get?_eq_none_iff, Classical.not_not]; exact hk))
  unfold prepare
  simp only
  rw [e RM (by decide), e AM (by decide), e TM (by decide), e MP (by decide), e TT (by decide), e AL (by decide), e ER (by decide)]

/-! ### Options of the right kind -/

theorem invAll_typed {tm : List (Str × V)} : ∀ {d : Dict Str Str} (acc : Dict Str Str), vals? V.str? tm = some d →
    invAll tm acc = .ok (d.foldl (fun acc p => Dict.set acc p.2 p.1) acc) := by
  induction tm with
  | nil => intro d acc h; cases h; rfl
  | cons p tm ih =>
    obtain ⟨m, v⟩ := p
    intro d acc h
    rw [vals?] at h
    cases v <;> simp only [V.str?, Option.bind_eq_bind, Option.bind_none, Option.bind_some, reduceCtorEq] at h
    cases hr : vals? V.str? tm with
    | none => rw [hr] at h; cases h
    | some r =>
      rw [hr] at h
      cases h
      rw [invAll, ih _ hr]
      rfl

theorem interAll_typed {tt : List (Str × V)} : ∀ {d : Dict Str Bool}, vals? V.inter? tt = some d → interAll tt = .ok d := by
  induction tt with
  | nil => intro d h; cases h; rfl
  | cons p tt ih =>
    obtain ⟨t, v⟩ := p
    intro d h
    rw [vals?] at h
    cases v <;> simp only [V.inter?, Option.bind_eq_bind, Option.bind_none, Option.bind_some, reduceCtorEq] at h
    cases hr : vals? V.inter? tt with
    | none => rw [hr] at h; cases h
    | some r =>
      rw [hr] at h
      cases h
      simp only [interAll, ih hr]
      rfl

theorem align?_some {v : V} {r : Option Str} {t : Str} (h : v.align? = some (r, t)) : ∃ a, unpack2 v = .ok (a, .str t) := by
  unfold V.align? at h
  split at h
  · cases h; exact ⟨_, rfl⟩
  · cases h; exact ⟨_, rfl⟩
  · cases h

theorem tbLoopV_typed (inv : Dict Str Str) (il : Dict Str Bool) {al : List (Str × V)} :
    ∀ {d : Dict Str (Option Str × Str)} (acc : Dict Str Str), vals? V.align? al = some d →
      tbLoopV inv il acc al = tbLoop inv il acc d := by
  induction al with
  | nil => intro d acc h; cases h; rfl
  | cons p al ih =>
    obtain ⟨t1, v⟩ := p
    intro d acc h
    rw [vals?] at h
    cases ha : v.align? with
    | none => rw [ha] at h; cases h
    | some rt =>
      obtain ⟨ra, t2⟩ := rt
      cases hr : vals? V.align? al with
      | none => rw [ha, hr] at h; cases h
      | some r =>
        rw [ha, hr] at h
        cases h
        obtain ⟨a, hu⟩ := align?_some ha
        rw [tbLoopV, tbLoop, hu]
        by_cases h1 : interl il t1 = true
        · by_cases h2 : interl il t2 = true
          · rw [if_pos (And.intro h1 h2)]
            simp only [bind, Except.bind, h1, h2, partner, if_true]
            cases Dict.getItem inv t2 with
            | error e => rfl
            | ok m2 =>
              cases Dict.getItem inv t1 with
              | error e => rfl
              | ok m1 => exact ih _ hr
          · rw [if_neg (fun h => h2 h.2)]
            simp only [bind, Except.bind, h1, h2, partner, if_true, Bool.false_eq_true, if_false]
            exact ih _ hr
        · rw [if_neg (fun h => h1 h.1)]
          simp only [bind, Except.bind, h1, Bool.false_eq_true, if_false]
          exact ih _ hr

theorem makeTb_typed {o : Dict Str V} {op : Opts} {il : Dict Str Bool} (h : readOpts o = some (op, il)) :
    makeTb o = tbAlignments op.tierMap il op.alignments := by
  unfold readOpts at h
  simp only [Option.bind_eq_bind, Option.bind_eq_some_iff, Option.some.injEq, Prod.mk.injEq] at h
  obtain ⟨_, -, rm, -, _, -, am, -, vtm, htm, tm, rtm, _, -, mp, -, _, -, tt, -, vtt, htt, il', ril, val, hal, al, ral, rfl, rfl⟩ := h
  have d : ∀ {α : Type} {f : V → Option α} {v : V} {r : Dict Str α}, v.dict? f = some r → ∃ l, v = .obj l ∧ vals? f l = some r := by
    intro α f v r h
    cases v <;> simp only [V.dict?, reduceCtorEq] at h
    exact ⟨_, rfl, h⟩
  obtain ⟨ltm, rfl, rtm⟩ := d rtm
  obtain ⟨ltt, rfl, ril⟩ := d ril
  obtain ⟨lal, rfl, ral⟩ := d ral
  unfold makeTb Dict.getItem
  rw [htm, htt, hal]
  simp only [bind, Except.bind, V.items, invAll_typed [] rtm, interAll_typed ril]
  exact tbLoopV_typed _ _ [] ral

/-! ### Theorems -/

/-- what is used is what is given or else the documented default, and no other option is added but the alignments
of markers; these are the ones C94 is about -/
theorem C141_given (d o : Dict Str V) (h : toolboxOptions (.obj d) = .ok o) :
    (∀ k v, k ≠ lit! "tb_alignments" → (Dict.get? o k = some v ↔ Uses documented d k v)) ∧
    ∀ op il, readOpts o = some (op, il) → ∃ tb, tbAlignments op.tierMap il op.alignments = .ok tb ∧
      Dict.get? o (lit! "tb_alignments") = some (.obj (tb.map fun p => (p.1, .str p.2))) := by
  unfold toolboxOptions at h
  simp only [optionsOf, bind, Except.bind] at h
  cases ht : makeTb (prepare d) with
  | error e => rw [ht] at h; cases h
  | ok tb =>
    rw [ht] at h
    cases h
    have hg : ∀ k, k ≠ TB → Dict.get? (addTb (prepare d) tb) k = Dict.get? (prepare d) k := by
      intro k hk
      rw [addTb, Dict.get?_set, if_neg (fun e => hk e.symm)]
    refine ⟨fun k v hk => ?_, fun op il hr => ⟨tb, ?_, ?_⟩⟩
    · rw [hg k hk, get?_prepare, or_uses]
    · rw [← makeTb_typed hr, ← ht]
      exact makeTb_congr (hg TM (by decide)) (hg TT (by decide)) (hg AL (by decide))
    · rw [addTb, Dict.get?_set, if_pos (by decide)]

/-- the other options, the order of all, and alignments of markers that are given, do not matter -/
theorem C141_same (d d' : Dict Str V) (h : ∀ k, (∃ v, (k, v) ∈ documented) → Dict.get? d k = Dict.get? d' k) :
    (∀ e, toolboxOptions (.obj d) = .error e ↔ toolboxOptions (.obj d') = .error e) ∧
    ∀ o o', toolboxOptions (.obj d) = .ok o → toolboxOptions (.obj d') = .ok o' →
      readOpts o = readOpts o' ∧
      ∀ k, (k = lit! "tb_alignments" ∨ ∃ v, (k, v) ∈ documented) → Dict.get? o k = Dict.get? o' k := by
  have hp : ∀ k, (∃ v, (k, v) ∈ documented) → Dict.get? (prepare d) k = Dict.get? (prepare d') k := by
    intro k hk
    rw [get?_prepare, get?_prepare, h k hk]
  have ht : makeTb (prepare d) = makeTb (prepare d') :=
    makeTb_congr (hp TM ⟨dTM, by simp [documented, TM, dTM]⟩) (hp TT ⟨dTT, by simp [documented, TT, dTT, Opt.il, TYPE, INTER]⟩)
      (hp AL ⟨dAL, by simp [documented, AL, dAL, al2]⟩)
  unfold toolboxOptions
  simp only [optionsOf, bind, Except.bind]
  rw [ht]
  cases makeTb (prepare d') with
  | error e =>
    refine ⟨fun e' => ⟨fun h => h, fun h => h⟩, ?_⟩
    intro o o' h
    cases h
  | ok tb =>
    refine ⟨fun e' => ⟨(fun h => nomatch h), (fun h => nomatch h)⟩, ?_⟩
    intro o o' h1 h2
    cases h1
    cases h2
    have hk : ∀ k, (k = lit! "tb_alignments" ∨ ∃ v, (k, v) ∈ documented) →
        Dict.get? (addTb (prepare d) tb) k = Dict.get? (addTb (prepare d') tb) k := by
      intro k hk
      rw [addTb, addTb, Dict.get?_set, Dict.get?_set]
      split
      · rfl
      · next hne =>
        rcases hk with e | hk
        · exact absurd e.symm hne
        · exact hp k hk
    refine ⟨?_, hk⟩
    unfold readOpts
    rw [hk RM (.inr ⟨dRM, by simp [documented, RM, dRM]⟩), hk AM (.inr ⟨dAM, by simp [documented, AM, dAM]⟩),
      hk TM (.inr ⟨dTM, by simp [documented, TM, dTM]⟩), hk MP (.inr ⟨dMP, by simp [documented, MP, dMP]⟩),
      hk TT (.inr ⟨dTT, by simp [documented, TT, dTT, Opt.il, TYPE, INTER]⟩), hk AL (.inr ⟨dAL, by simp [documented, AL, dAL, al2]⟩)]

/-- the options are changed, but when they are used again it is the same as before -/
theorem C141_again (v : V) (o : Dict Str V) (h : toolboxOptions v = .ok o) : toolboxOptions (.obj o) = .ok o := by
  unfold toolboxOptions at h
  cases hv : optionsOf v with
  | error e => rw [hv] at h; cases h
  | ok d =>
    rw [hv] at h
    simp only [bind, Except.bind] at h
    cases ht : makeTb (prepare d) with
    | error e => rw [ht] at h; cases h
    | ok tb =>
      rw [ht] at h
      cases h
      have hg : ∀ k, k ≠ TB → Dict.get? (addTb (prepare d) tb) k = Dict.get? (prepare d) k := by
        intro k hk
        rw [addTb, Dict.get?_set, if_neg (fun e => hk e.symm)]
      have hf : prepare (addTb (prepare d) tb) = addTb (prepare d) tb := by
        refine prepare_full fun k hk => ?_
        rw [addTb, Dict.get?_set]
        split
        · simp
        · rw [get?_prepare]
          cases Dict.get? d k with
          | none => exact hk
          | some v => simp
      have ht' : makeTb (addTb (prepare d) tb) = .ok tb := by
        rw [← ht]
        exact makeTb_congr (hg TM (by decide)) (hg TT (by decide)) (hg AL (by decide))
      unfold toolboxOptions
      simp only [optionsOf, bind, Except.bind]
      rw [hf, ht']
      have hs : addTb (addTb (prepare d) tb) tb = addTb (prepare d) tb := by
        have : Dict.get? (addTb (prepare d) tb) TB = some (.obj (tb.map fun p => (p.1, .str p.2))) := by
          rw [addTb, Dict.get?_set, if_pos (by decide)]
        generalize addTb (prepare d) tb = o at this
        exact set_same this
      exact congrArg Except.ok hs

/-- no configuration, `null`, an empty one, and the documented one are all the same: the default options -/
theorem C141_default : ∃ o tb, toolboxOptions .null = .ok o ∧ toolboxOptions (.obj []) = .ok o ∧ toolboxOptions (.obj documented) = .ok o ∧
    readOpts o = some (defaults, defaultInterlinear) ∧ tbAlignments defaults.tierMap defaultInterlinear defaults.alignments = .ok tb ∧
    Dict.get? o (lit! "tb_alignments") = some (.obj (tb.map fun p => (p.1, .str p.2))) :=
  ⟨_, [(lit! "\\m", lit! "\\t"), (lit! "\\g", lit! "\\m"), (lit! "\\p", lit! "\\m")], rfl, rfl, rfl, rfl, by decide +kernel, rfl⟩

/-- the same for Odin -/
theorem C141_odin : (∀ d o, odinOptions (.obj d) = .ok o → ∀ k v, Dict.get? o k = some v ↔ Uses documentedOdin d k v) ∧
    (∀ d, ∃ o, odinOptions (.obj d) = .ok o) ∧
    ∃ o, odinOptions .null = .ok o ∧ odinOptions (.obj []) = .ok o ∧ odinOptions (.obj documentedOdin) = .ok o ∧
      readOdin o = some ({}, lit! ".txt") := by
  refine ⟨fun d o h k v => ?_, fun d => ⟨_, rfl⟩, _, rfl, rfl, rfl, rfl⟩
  cases h
  rw [← or_uses]
  simp only [get?_setDefault, Option.or_assoc]
  rw [iff_iff_eq]
  congr 2
  unfold documentedOdin
  simp only [Dict.get?]
  unfold SUF REP KH
  repeat' split
  all_goals first | rfl | (rename_i h; exact absurd ‹_› h)

/-- a configuration that cannot be used leaves all files as they are: the output is neither made nor emptied -/
theorem C141_safe (load : Str → Py V) (imp : Dict Str V → Str → Py Str) (config : Option Str) (infile outfile : Str) (fs : FS)
    (h : match config with
      | none => False
      | some p => contents fs p = none ∨ ∃ t, contents fs p = some t ∧
        ((∃ e, load t = .error e) ∨ ∃ v, load t = .ok v ∧ ∃ e, toolboxOptions v = .error e)) :
    ∃ e, runToolbox load imp config infile outfile fs = (.error e, fs) := by
  cases config with
  | none => exact h.elim
  | some p =>
    rcases h with h | ⟨t, h, ⟨e, h1⟩ | ⟨v, h1, e, h2⟩⟩
    · refine ⟨.os, ?_⟩
      simp [runToolbox, readConfig, readFile, h, bind]
    · refine ⟨.py e, ?_⟩
      simp [runToolbox, readConfig, readFile, h, h1, bind, lift, fail]
    · refine ⟨.py e, ?_⟩
      simp [runToolbox, readConfig, readFile, h, h1, h2, bind, lift, fail]

/-- otherwise it is imported with the options -/
theorem C141_run (load : Str → Py V) (imp : Dict Str V → Str → Py Str) (config : Option Str) (infile outfile : Str) (fs : FS) (v : V)
    (o : Dict Str V)
    (h : match config with
      | none => v = .null
      | some p => ∃ t, contents fs p = some t ∧ load t = .ok v)
    (ho : toolboxOptions v = .ok o) :
    runToolbox load imp config infile outfile fs = importFile (imp o) infile outfile fs := by
  cases config with
  | none =>
    subst h
    simp [runToolbox, readConfig, bind, lift, ho, pure]
  | some p =>
    obtain ⟨t, h, h1⟩ := h
    simp [runToolbox, readConfig, readFile, h, h1, bind, lift, ho]

/-- not every configuration whose options are all of the right kind can be used: with only a map of markers to tiers, all
of whose tiers have a type, there is a KeyError, because the default alignments have tiers the map does not have -/
theorem C141_refuted : ¬ ∀ (d : Dict Str V) (op : Opts) (il : Dict Str Bool), readOpts (prepare d) = some (op, il) →
    (∀ p ∈ op.tierMap, Dict.has op.tierTypes p.2 = true) → ∃ o, toolboxOptions (.obj d) = .ok o := by
  intro h
  obtain ⟨o, ho⟩ := h [(TM, .obj [(lit! "\\t", .str (lit! "w")), (lit! "\\f", .str (lit! "t"))])]
    { defaults with tierMap := [(lit! "\\t", lit! "w"), (lit! "\\f", lit! "t")] } defaultInterlinear rfl (by decide)
  have e : toolboxOptions (.obj [(TM, .obj [(lit! "\\t", .str (lit! "w")), (lit! "\\f", .str (lit! "t"))])]) = .error .keyError := rfl
  rw [e] at ho
  cases ho

/-- what can be used among the configurations whose options are of the right kind: those with a marker for each of two
interlinear tiers that are aligned -/
theorem C141_partial (d : Dict Str V) (op : Opts) (il : Dict Str Bool) (hr : readOpts (prepare d) = some (op, il))
    (hw : op.tierMap.WF) :
    (∃ o, toolboxOptions (.obj d) = .ok o) ↔
      ∀ t1 t2, Aligned il op.alignments t1 t2 → ¬ Unmapped op.tierMap t1 ∧ ¬ Unmapped op.tierMap t2 := by
  have hf := C94_fails op.tierMap il op.alignments hw
  have ht := makeTb_typed hr
  constructor
  · rintro ⟨o, ho⟩ t1 t2 ha
    have : ∀ e, tbAlignments op.tierMap il op.alignments ≠ .error e := by
      intro e he
      unfold toolboxOptions at ho
      rw [show optionsOf (.obj d) = .ok d from rfl] at ho
      simp only [bind, Except.bind] at ho
      rw [ht, he] at ho
      cases ho
    exact ⟨fun hu => this _ (hf.1 ⟨t1, t2, ha, .inl hu⟩), fun hu => this _ (hf.1 ⟨t1, t2, ha, .inr hu⟩)⟩
  · intro h
    obtain ⟨tb, he⟩ := hf.2 h
    refine ⟨addTb (prepare d) tb, ?_⟩
    unfold toolboxOptions
    rw [show optionsOf (.obj d) = .ok d from rfl]
    simp only [bind, Except.bind]
    rw [ht, he]

/-! ### Examples -/

/-- a configuration with a map, other alignments, an unknown option and a given `tb_alignments` -/
def cfg : Dict Str V := [(lit! "color", .num 3), (TB, .null), (AL, .obj [(lit! "m", al2 (lit! "segmentation") (lit! "w"))]),
  (TM, .obj [(lit! "\\tx", .str (lit! "w")), (lit! "\\mb", .str (lit! "m"))]), (MP, .null)]

example : ∃ o, toolboxOptions (.obj cfg) = .ok o ∧
    Dict.get? o TB = some (.obj [(lit! "\\mb", .str (lit! "\\tx"))]) ∧
    readOpts o = some ({ defaults with
      tierMap := [(lit! "\\tx", lit! "w"), (lit! "\\mb", lit! "m")]
      phrase := none
      alignments := [(lit! "m", (some SEGMENTATION, lit! "w"))] }, defaultInterlinear) := ⟨_, rfl, rfl, rfl⟩

/-- another order, without what is not known: as `C141_same` requires -/
example : ∀ k, (∃ v, (k, v) ∈ documented) → Dict.get? cfg k = Dict.get? (cfg.tail.tail.reverse) k := by
  intro k
  rintro ⟨v, h⟩
  simp only [documented, List.mem_cons, List.not_mem_nil, or_false, Prod.mk.injEq] at h
  rcases h with ⟨rfl, -⟩ | ⟨rfl, -⟩ | ⟨rfl, -⟩ | ⟨rfl, -⟩ | ⟨rfl, -⟩ | ⟨rfl, -⟩ | ⟨rfl, -⟩ <;> rfl

/-- things that are no configuration, or have options of another kind -/
example : toolboxOptions (.arr []) = .error .attributeError ∧ toolboxOptions (.bool false) = .error .attributeError ∧
    toolboxOptions (.obj [(TM, .null)]) = .error .attributeError ∧
    toolboxOptions (.obj [(AL, .obj [(lit! "m", .null)])]) = .error .typeError ∧
    toolboxOptions (.obj [(AL, .obj [(lit! "m", .arr [.null])])]) = .error .valueError :=
  ⟨rfl, rfl, rfl, rfl, rfl⟩

/-- a directory with a configuration that is no object, and an output that is there already -/
example : ∃ fs e, contents fs (lit! "/c") = some (lit! "[]") ∧ contents fs (lit! "/o") = some (lit! "old") ∧
    runToolbox (fun _ => .ok (.arr [])) (fun _ t => .ok t) (some (lit! "/c")) (lit! "/i") (lit! "/o") fs = (.error e, fs) := by
  refine ⟨⟨[([lit! "c"], lit! "[]"), ([lit! "o"], lit! "old")], [[]], []⟩, _, by decide, by decide, rfl⟩

end Xigt.Opt
