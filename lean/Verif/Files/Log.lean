import Verif.Files.CommandRun
/-
C166: what `xigt sort` and `xigt partition` log: /repo/xigt/scripts/xigt_sort.py:11-33, 94, xigt_partition.py:12-37, 88.

`logging.basicConfig` of the standard library is read as: a message is written to standard error, as a line
`LEVEL:root:message`, if its level is at least that of the root logger.
-/
set_option linter.unusedSectionVars false

namespace Xigt.Files

open Cmd (Given Options argsOf said1 lastWord allWords saidAny)

/-! ### Model -/

/-- `logging.DEBUG`, `logging.INFO`, `logging.ERROR` -/
inductive Level where
  | debug
  | info
  | error
  deriving DecidableEq

/-- the numbers of the levels -/
def Level.num : Level → Int
  | .debug => 10
  | .info => 20
  | .error => 40

/-- their names -/
def Level.name : Level → Str
  | .debug => lit! "DEBUG"
  | .info => lit! "INFO"
  | .error => lit! "ERROR"

/-- a message -/
structure Msg where
  level : Level
  text : Str
  deriving DecidableEq

/-- xigt_sort.py:94, xigt_partition.py:88 `logging.basicConfig(level=50-(args.verbosity*10))`: the lines on standard error -/
def logLines (verbosity : Nat) (ms : List Msg) : List Str :=
  (ms.filter fun m => decide (50 - (verbosity : Int) * 10 ≤ m.level.num)).map fun m => m.level.name ++ lit! ":root:" ++ m.text

/-- a program that uses files and logs messages -/
def LAct (α : Type) : Type := FS → List Msg × (Except FErr α × FS)

instance : Monad LAct where
  pure a := fun fs => ([], (.ok a, fs))
  bind m f := fun fs => match m fs with
    | (l, (.ok a, fs')) => (l ++ (f a fs').1, (f a fs').2)
    | (l, (.error e, fs')) => (l, (.error e, fs'))

/-- `logging.debug`, `logging.info`, `logging.error` -/
def say (v : Level) (t : Str) : LAct Unit := fun fs => ([⟨v, t⟩], (.ok (), fs))

/-- a part that logs nothing -/
def mute {α : Type} (m : Act α) : LAct α := fun fs => ([], m fs)

section
variable [Uni] [XmlLex]

/-- xigt_partition.py:29-37 `create_outdir` -/
def createOutdirL (outdir : Str) : LAct Unit := fun fs =>
  if isDir fs outdir then (do say .error (lit! "Output directory already exists."); mute (fail (.exit 1)) : LAct Unit) fs
  else match mkdir outdir fs with
    | (.ok _, fs') => ([], (.ok (), fs'))
    | (.error _, fs') => (do say .error (lit! "Output directory could not be created."); mute (fail (.exit 1)) : LAct Unit) fs'

/-- xigt_partition.py:20-22, 39-43 -/
def indexL (a : PArgs) : List Str → Part.Idx → LAct Part.Idx
  | [], idx => pure idx
  | fn :: fns, idx => do
    say .info (lit! "Indexing " ++ fn)
    let f ← mute (load a fn)
    let idx ← mute (lift (Part.indexLoop a.bare fn f 0 f.igts idx))
    indexL a fns idx

/-- xigt_partition.py:23-27, 48-57; `format` of None is `None` -/
def writeL (a : PArgs) : Part.Idx → LAct Unit
  | [] => pure ()
  | (key, d) :: idx => do
    say .info (lit! "Writing " ++ key.getD (lit! "None") ++ lit! " (grouped from " ++ natStr d.length ++ lit! " files)")
    let igts ← mute (collectF a d [])
    mute (dumpF (Part.outName a.bare key) (Part.newCorpus igts))
    writeL a idx

/-- xigt_partition.py:12-27 `run` -/
def partitionL (a : PArgs) (infiles : List Str) : LAct Unit := do
  say .debug (lit! "Partitioning with path '" ++ a.keyPath ++ lit! "'")
  say .debug (lit! "Writing to " ++ a.outdir)
  createOutdirL a.outdir
  let idx ← indexL a infiles []
  writeL a idx

/-- xigt_partition.py:20-22, 39-43 for the path None (see `indexNone`) -/
def indexNoneL (look : Nat → Nat) : List Str → LAct Unit
  | [] => pure ()
  | fn :: fns => do
    say .info (lit! "Indexing " ++ fn)
    let t ← mute (readFile fn)
    let f ← mute (lift (pfile look t))
    if f.igts.isEmpty then indexNoneL look fns else mute (fail (.py .attributeError))

/-- xigt_partition.py:60-93, 12-27 -/
def partitionLC (w : World) (ns : Dict Str Cmd.Val) : LAct Unit :=
  let outdir := (strOf ns (lit! "outdir")).getD []
  let infiles := listOf ns (lit! "infiles")
  match strOf ns (lit! "key_path") with
  | some k => partitionL ⟨w.path, k, (strOf ns (lit! "default_key")).getD [], outdir, w.look⟩ infiles
  | none => do
    say .debug (lit! "Partitioning with path 'None'")
    say .debug (lit! "Writing to " ++ outdir)
    createOutdirL outdir
    indexNoneL w.look infiles

/-- a stage of sorting and its message -/
def stage (t : Str) (r : Run Obj) : Option (List Msg × Py Obj) := r.map fun x => ([⟨.info, t⟩], x)

/-- one stage after another -/
def thenL (r : Option (List Msg × Py Obj)) (f : Obj → Option (List Msg × Py Obj)) : Option (List Msg × Py Obj) :=
  match r with
  | none => none
  | some (l, .error e) => some (l, .error e)
  | some (l, .ok a) => (f a).map fun r => (l ++ r.1, r.2)

/-- xigt_sort.py:13-29 -/
def sortRunL (c : XP.PCfg) (n : Nat) (a : Srt.Args) (infile : Str) (xc : Obj) : Option (List Msg × Py Obj) :=
  thenL (if a.igtKey ≠ [] then stage (lit! "Sorting " ++ infile ++ lit! " IGTs") (some (Srt.sortKids c a.igtKey xc [])) else some ([], .ok xc)) fun xc =>
  thenL (if a.tierKey ≠ [] then
      stage (lit! "Sorting " ++ infile ++ lit! " tiers by key") (Srt.eachKid (fun igt up => some (Srt.sortKids c a.tierKey igt up)) xc [])
    else if a.tierDeps ≠ [] then
      stage (lit! "Sorting " ++ infile ++ lit! " tiers by ref-dependencies") (Srt.eachKid (fun igt _ => Srt.depSort n a.tierDeps igt) xc [])
    else some ([], .ok xc)) fun xc =>
  if a.itemKey ≠ [] then
    stage (lit! "Sorting " ++ infile ++ lit! " items by key")
      (Srt.eachKid (fun igt up => Srt.eachKid (fun tier up => some (Srt.sortKids c a.itemKey tier up)) igt up) xc [])
  else some ([], .ok xc)

/-- xigt_sort.py:11-33 `run` -/
def sortL (c : XP.PCfg) (look : Nat → Nat) (n : Nat) (a : Srt.Args) (inPlace : Bool) (infile : Str) (fs : FS) : Option (List Msg × (Except FErr Str × FS)) :=
  match contents fs infile with
  | none => some ([], (.error .os, fs))
  | some s => match loadsXml look s with
    | .error e => some ([], (.error (.py e), fs))
    | .ok xc => (sortRunL c n a infile xc).map fun r => match r.2 with
      | .error e => (r.1, (.error (.py e), fs))
      | .ok y => (r.1,
        if inPlace then (do dumpF infile y; pure [] : Act Str) fs
        else (do let t ← lift (dumpsXml (some 2) y); pure (t ++ ['\n']) : Act Str) fs)

/-- main.py:25-37: what `xigt sort` and `xigt partition` write to standard error as the log, how they end, and the files; `none` for the other scripts, and if sorting does not end -/
def xigtL (w : World) (argv : List Str) (fs : FS) : Option (List Str × (Ended × FS)) :=
  match Cmd.xigt argv with
  | .ok (.sort, some ns) =>
    (sortL w.path w.look w.steps (sortArgs ns) (flagOf ns (lit! "in_place")) ((strOf ns (lit! "infile")).getD []) fs).map fun r =>
      (logLines (natOf ns (lit! "verbosity")) r.1, (ended r.2.1, r.2.2))
  | .ok (.partition, some ns) =>
    some (logLines (natOf ns (lit! "verbosity")) (partitionLC w ns fs).1, (ended ((partitionLC w ns fs).2.1.map fun _ => []), (partitionLC w ns fs).2.2))
  | _ => none

/-! ### Specification -/

/-- a file that can be indexed: it can be read, and its IGTs have keys -/
def Fine (a : PArgs) (fs : FS) (fn : Str) : Prop := ∃ f, asRead a fs fn = .ok f ∧ ∀ x ∈ f.igts, ∃ k, Part.keyOf a.bare f x = .ok k

/-- the keys of the IGTs of a file -/
def keysIn (a : PArgs) (fs : FS) (fn : Str) : List (Option Str) :=
  match asRead a fs fn with
  | .ok f => f.igts.filterMap fun x => (Part.keyOf a.bare f x).toOption
  | .error _ => []

/-- the message for a file -/
def indexing (fn : Str) : Msg := ⟨.info, lit! "Indexing " ++ fn⟩

/-- the message for a key that is in `n` files -/
def writing (k : Option Str) (n : Nat) : Msg := ⟨.info, lit! "Writing " ++ k.getD (lit! "None") ++ lit! " (grouped from " ++ natStr n ++ lit! " files)"⟩

/-- the messages for the keys, in the order in which they are first met: each with the number of different files that have it -/
def writings (a : PArgs) (fs : FS) (infiles : List Str) : List Msg :=
  (Part.firsts (infiles.flatMap (keysIn a fs))).map fun k => writing k ((Part.firsts infiles).countP fun fn => decide (k ∈ keysIn a fs fn))

/-- what is said before anything is done -/
def opening (a : PArgs) : List Msg := [⟨.debug, lit! "Partitioning with path '" ++ a.keyPath ++ lit! "'"⟩, ⟨.debug, lit! "Writing to " ++ a.outdir⟩]

/-- the messages of a partition and how it ends -/
inductive Logs (a : PArgs) (infiles : List Str) (fs : FS) : List Msg → Except FErr Unit → FS → Prop
  /-- the directory is there already -/
  | exists : isDir fs a.outdir = true → Logs a infiles fs (opening a ++ [⟨.error, lit! "Output directory already exists."⟩]) (.error (.exit 1)) fs
  /-- it cannot be made -/
  | mkdir {e} : isDir fs a.outdir = false → mkdir a.outdir fs = (.error e, fs) →
      Logs a infiles fs (opening a ++ [⟨.error, lit! "Output directory could not be created."⟩]) (.error (.exit 1)) fs
  /-- a file cannot be indexed: it is the last that is named -/
  | index {fs₁ pre fn post e} : isDir fs a.outdir = false → mkdir a.outdir fs = (.ok (), fs₁) → infiles = pre ++ fn :: post → (∀ g ∈ pre, Fine a fs₁ g) → ¬ Fine a fs₁ fn →
      Logs a infiles fs (opening a ++ pre.map indexing ++ [indexing fn]) (.error e) fs₁
  /-- a key cannot be written: it is the last that is named -/
  | write {fs₁ fs' pre m post e} : isDir fs a.outdir = false → mkdir a.outdir fs = (.ok (), fs₁) → (∀ g ∈ infiles, Fine a fs₁ g) → writings a fs₁ infiles = pre ++ m :: post →
      Logs a infiles fs (opening a ++ infiles.map indexing ++ pre ++ [m]) (.error e) fs'
  /-- all is written -/
  | done {fs₁ fs'} : isDir fs a.outdir = false → mkdir a.outdir fs = (.ok (), fs₁) → (∀ g ∈ infiles, Fine a fs₁ g) →
      Logs a infiles fs (opening a ++ infiles.map indexing ++ writings a fs₁ infiles) (.ok ()) fs'

/-- only the first stages of sorting: of IGTs, of tiers, of items -/
def upto (a : Srt.Args) : Nat → Srt.Args
  | 0 => {}
  | 1 => { igtKey := a.igtKey }
  | 2 => { igtKey := a.igtKey, tierKey := a.tierKey, tierDeps := a.tierDeps }
  | _ => a

/-- the messages for the stages that are asked for; keys of tiers come before their dependencies -/
def stages (a : Srt.Args) (infile : Str) : List Msg :=
  (if a.igtKey = [] then [] else [⟨.info, lit! "Sorting " ++ infile ++ lit! " IGTs"⟩]) ++
  (if a.tierKey ≠ [] then [⟨.info, lit! "Sorting " ++ infile ++ lit! " tiers by key"⟩]
    else if a.tierDeps ≠ [] then [⟨.info, lit! "Sorting " ++ infile ++ lit! " tiers by ref-dependencies"⟩] else []) ++
  (if a.itemKey = [] then [] else [⟨.info, lit! "Sorting " ++ infile ++ lit! " items by key"⟩])

/-! ### Logging changes nothing -/

theorem mute_bind {α β : Type} (m : Act α) (f : α → LAct β) (fs : FS) : (mute m >>= f) fs = match m fs with
    | (.ok a, fs') => f a fs'
    | (.error e, fs') => ([], (.error e, fs')) := by
  change (match (([] : List Msg), m fs) with
    | (l, (.ok a, fs')) => (l ++ (f a fs').1, (f a fs').2)
    | (l, (.error e, fs')) => (l, (.error e, fs'))) = _
  rcases m fs with ⟨_ | _, _⟩ <;> rfl

theorem say_bind {β : Type} (v : Level) (t : Str) (f : Unit → LAct β) (fs : FS) : (say v t >>= f) fs = (⟨v, t⟩ :: (f () fs).1, (f () fs).2) := rfl

/-- without its log the one program is the other -/
def Same {α : Type} (m : LAct α) (m' : Act α) : Prop := ∀ fs, (m fs).2 = m' fs

theorem Same.bind {α β : Type} {m : LAct α} {m' : Act α} {f : α → LAct β} {f' : α → Act β} (h : Same m m') (hf : ∀ a, Same (f a) (f' a)) :
    Same (m >>= f) (m' >>= f') := by
  intro fs
  have h := h fs
  change (match m fs with
    | (l, (.ok a, fs')) => (l ++ (f a fs').1, (f a fs').2)
    | (l, (.error e, fs')) => (l, (.error e, fs'))).2 = (match m' fs with
    | (.ok a, fs') => f' a fs'
    | (.error e, fs') => (.error e, fs'))
  rw [← h]
  rcases m fs with ⟨l, _ | _, _⟩
  · rfl
  · exact hf _ _

theorem Same.say {β : Type} {v : Level} {t : Str} {f : LAct β} {f' : Act β} (h : Same f f') : Same (say v t >>= fun _ => f) f' := by
  intro fs
  rw [say_bind]
  exact h fs

theorem Same.mute {α : Type} (m : Act α) : Same (mute m) m := fun _ => rfl

theorem outdir_same (o : Str) : Same (createOutdirL o) (createOutdir o) := by
  intro fs
  unfold createOutdirL createOutdir
  split
  · rfl
  · rcases mkdir o fs with ⟨_ | _, _⟩ <;> rfl

theorem index_same (a : PArgs) : ∀ fns idx, Same (indexL a fns idx) (indexF a fns idx) := by
  intro fns
  induction fns with
  | nil => intro idx fs; rfl
  | cons fn fns ih => intro idx; exact .say (.bind (.mute _) fun f => .bind (.mute _) fun idx => ih idx)

theorem write_same (a : PArgs) : ∀ idx, Same (writeL a idx) (writeF a idx) := by
  intro idx
  induction idx with
  | nil => intro fs; rfl
  | cons p idx ih => exact .say (.bind (.mute _) fun igts => .bind (.mute _) fun _ => ih)

theorem partition_same (a : PArgs) (infiles : List Str) : Same (partitionL a infiles) (partition a infiles) :=
  .say (.say (.bind (outdir_same _) fun _ => .bind (index_same a _ _) fun idx => write_same a idx))

theorem indexNone_same (look : Nat → Nat) : ∀ fns, Same (indexNoneL look fns) (indexNone look fns) := by
  intro fns
  induction fns with
  | nil => intro fs; rfl
  | cons fn fns ih =>
    refine .say (.bind (.mute _) fun t => .bind (.mute _) fun f => ?_)
    split
    · exact ih
    · exact .mute _

theorem partitionC_same (w : World) (ns : Dict Str Cmd.Val) : Same (partitionLC w ns) (partitionC w ns) := by
  unfold partitionLC partitionC
  cases hk : strOf ns (lit! "key_path") with
  | some k => exact partition_same _ _
  | none => exact .say (.say (.bind (outdir_same _) fun _ => indexNone_same _ _))

theorem thenL_same (r : Option (List Msg × Py Obj)) (f : Obj → Option (List Msg × Py Obj)) :
    (thenL r f).map Prod.snd = Srt.thenRun (r.map Prod.snd) fun x => (f x).map Prod.snd := by
  rcases r with _ | ⟨l, _ | x⟩
  · rfl
  · rfl
  · simp only [thenL, Srt.thenRun, Option.map_some]
    cases f x <;> rfl

theorem stage_same (t : Str) (r : Run Obj) : (stage t r).map Prod.snd = r := by
  unfold stage
  cases r <;> rfl

theorem sortRun_same (c : XP.PCfg) (n : Nat) (a : Srt.Args) (infile : Str) (xc : Obj) : (sortRunL c n a infile xc).map Prod.snd = Srt.run c n a xc := by
  unfold sortRunL Srt.run
  rw [thenL_same]
  congr 1
  · split
    · exact stage_same _ _
    · rfl
  · funext xc
    rw [thenL_same]
    congr 1
    · split
      · exact stage_same _ _
      · split
        · exact stage_same _ _
        · rfl
    · funext xc
      split
      · exact stage_same _ _
      · rfl

theorem sort_same (c : XP.PCfg) (look : Nat → Nat) (n : Nat) (a : Srt.Args) (inPlace : Bool) (infile : Str) (fs : FS) :
    (sortL c look n a inPlace infile fs).map Prod.snd = sortF c look n a inPlace infile fs := by
  unfold sortL sortF
  cases contents fs infile with
  | none => rfl
  | some s =>
    simp only
    cases loadsXml look s with
    | error e => rfl
    | ok xc =>
      simp only
      rw [← sortRun_same c n a infile xc]
      cases sortRunL c n a infile xc with
      | none => rfl
      | some r =>
        obtain ⟨l, _ | y⟩ := r <;> rfl

/-- **C166**: logging changes neither how the program ends nor what it prints nor the files. -/
theorem C166_same (w : World) (argv : List Str) (fs : FS) (s : Cmd.Script) (ns : Dict Str Cmd.Val) (h : Cmd.xigt argv = .ok (s, some ns)) (hs : s = .sort ∨ s = .partition) :
    (xigtL w argv fs).map Prod.snd = xigtF w argv fs := by
  unfold xigtL xigtF
  rw [h]
  rcases hs with rfl | rfl
  · simp only [sortC]
    rw [← sort_same]
    cases sortL w.path w.look w.steps (sortArgs ns) (flagOf ns (lit! "in_place")) ((strOf ns (lit! "infile")).getD []) fs <;> rfl
  · simp only [silent, Option.map_some]
    rw [← partitionC_same w ns fs]

/-! ### The messages of partitions -/

theorem keys_fine {a : PArgs} {fn : Str} {f : Part.PFile} : ∀ (xs : List Obj) (i : Nat) (idx : Part.Idx),
    (∃ idx', Part.indexLoop a.bare fn f i xs idx = .ok idx') ↔ ∀ x ∈ xs, ∃ k, Part.keyOf a.bare f x = .ok k := by
  intro xs
  induction xs with
  | nil => intro i idx; exact ⟨fun _ x hx => (by simp at hx), fun _ => ⟨_, rfl⟩⟩
  | cons x xs ih =>
    intro i idx
    rw [Part.indexLoop]
    cases hk : Part.keyOf a.bare f x with
    | error e =>
      simp only [bind, Except.bind]
      refine ⟨fun ⟨_, h⟩ => (by cases h), fun h => ?_⟩
      obtain ⟨k, h⟩ := h x (by simp)
      rw [hk] at h
      cases h
    | ok k =>
      simp only [bind, Except.bind, ih, List.mem_cons, forall_eq_or_imp]
      exact ⟨fun h => ⟨⟨k, hk⟩, h⟩, fun h => h.2⟩

theorem indexL_eq (a : PArgs) (fs : FS) : ∀ fns idx,
    (∃ idx', indexL a fns idx fs = (fns.map indexing, (.ok idx', fs)) ∧ Part.indexAll (a.env (asRead a fs)) fns idx = .ok idx' ∧ ∀ g ∈ fns, Fine a fs g) ∨
    ∃ pre fn post e, fns = pre ++ fn :: post ∧ indexL a fns idx fs = (pre.map indexing ++ [indexing fn], (.error e, fs)) ∧ (∀ g ∈ pre, Fine a fs g) ∧ ¬ Fine a fs fn := by
  intro fns
  induction fns with
  | nil => intro idx; exact .inl ⟨idx, rfl, rfl, by simp⟩
  | cons fn fns ih =>
    intro idx
    rw [indexL, say_bind, mute_bind]
    cases hr : asRead a fs fn with
    | error e =>
      obtain ⟨e', he⟩ := load_error hr
      refine .inr ⟨[], fn, fns, e', rfl, ?_, by simp, ?_⟩
      · rw [he]; rfl
      · rintro ⟨f, hf, -⟩
        rw [hr] at hf
        cases hf
    | ok f =>
      rw [load_ok hr]
      simp only [mute_bind]
      cases hi : Part.indexLoop a.bare fn f 0 f.igts idx with
      | error e =>
        refine .inr ⟨[], fn, fns, .py e, rfl, rfl, by simp, ?_⟩
        rintro ⟨f', hf, hk⟩
        rw [hr] at hf
        cases hf
        obtain ⟨idx', h⟩ := (keys_fine (fn := fn) f.igts 0 idx).2 hk
        rw [hi] at h
        cases h
      | ok idx₁ =>
        have hfine : Fine a fs fn := ⟨f, hr, (keys_fine f.igts 0 idx).1 ⟨_, hi⟩⟩
        simp only [lift]
        rcases ih idx₁ with ⟨idx', h1, h2, h3⟩ | ⟨pre, g, post, e, h1, h2, h3, h4⟩
        · refine .inl ⟨idx', by rw [h1]; rfl, ?_, by simpa using ⟨hfine, h3⟩⟩
          rw [Part.indexAll, Part.index]
          have e1 : (a.env (asRead a fs)).load fn = .ok f := hr
          rw [e1]
          simp only [bind, Except.bind, indexLoop_env, hi, h2]
        · exact .inr ⟨fn :: pre, g, post, e, by rw [h1]; rfl, by rw [h2]; rfl, by simpa using ⟨hfine, h3⟩, h4⟩

theorem writeL_eq (a : PArgs) : ∀ (idx : Part.Idx) (fs : FS),
    (∃ fs', writeL a idx fs = (idx.map fun p => writing p.1 p.2.length, (.ok (), fs'))) ∨
    ∃ pre p post e fs', idx = pre ++ p :: post ∧ writeL a idx fs = (pre.map (fun p => writing p.1 p.2.length) ++ [writing p.1 p.2.length], (.error e, fs')) := by
  intro idx
  induction idx with
  | nil => intro fs; exact .inl ⟨fs, rfl⟩
  | cons p idx ih =>
    intro fs
    obtain ⟨key, d⟩ := p
    rw [writeL, say_bind, mute_bind]
    rcases collectF a d [] fs with ⟨e | igts, fs₁⟩
    · exact .inr ⟨[], (key, d), idx, e, fs₁, rfl, rfl⟩
    · simp only [mute_bind]
      rcases dumpF (Part.outName a.bare key) (Part.newCorpus igts) fs₁ with ⟨e | u, fs₂⟩
      · exact .inr ⟨[], (key, d), idx, e, fs₂, rfl, rfl⟩
      · simp only
        rcases ih fs₂ with ⟨fs', h⟩ | ⟨pre, p, post, e, fs', h1, h2⟩
        · exact .inl ⟨fs', by rw [h]; rfl⟩
        · exact .inr ⟨(key, d) :: pre, p, post, e, fs', by rw [h1]; rfl, by rw [h2]; rfl⟩

theorem events_keys {env : Part.PEnv} {fn : Str} {f : Part.PFile} {i : Nat} {xs : List Obj} {es : List Part.Event} (h : Part.Events env fn f i xs es) :
    es.map (fun e => e.1) = xs.filterMap fun x => (Part.keyOf env f x).toOption := by
  induction h with
  | nil => rfl
  | cons h1 _ ih => simp [h1, Except.toOption, ih]

theorem eventsAll_keys {a : PArgs} {fs : FS} {fns : List Str} {es : List Part.Event} (h : Part.EventsAll (a.env (asRead a fs)) fns es) :
    es.map (fun e => e.1) = fns.flatMap (keysIn a fs) := by
  generalize he : a.env (asRead a fs) = env at h
  induction h with
  | nil => rfl
  | @cons fn fns f es fs' h1 h2 _ ih =>
    rw [List.map_append, ih, List.flatMap_cons, events_keys h2]
    subst he
    have h1 : asRead a fs fn = .ok f := h1
    simp only [keysIn, h1]
    rfl

theorem fileD_keys {a : PArgs} {fs : FS} (fn : Str) (k : Option Str) :
    ((Part.fileD (a.env (asRead a fs)) fn).igts.filter fun x => decide (Part.keyOf (a.env (asRead a fs)) (Part.fileD (a.env (asRead a fs)) fn) x = .ok k)).length ≠ 0 ↔
      k ∈ keysIn a fs fn := by
  have e : ∀ f x, Part.keyOf (a.env (asRead a fs)) f x = Part.keyOf a.bare f x := fun _ _ => rfl
  have hl : (a.env (asRead a fs)).load fn = asRead a fs fn := rfl
  simp only [e, Part.fileD, hl, keysIn]
  rw [ne_eq, List.length_eq_zero_iff, List.filter_eq_nil_iff]
  cases asRead a fs fn with
  | error e => simp
  | ok f =>
    simp only [List.mem_filterMap, decide_eq_true_eq]
    constructor
    · intro h
      have : ∃ x ∈ f.igts, Part.keyOf a.bare f x = .ok k := Classical.byContradiction fun hn => h fun x hx hk => hn ⟨x, hx, hk⟩
      obtain ⟨x, hx, hk⟩ := this
      exact ⟨x, hx, by rw [hk]; rfl⟩
    · rintro ⟨x, hx, hk⟩ h
      refine h x hx ?_
      cases hk' : Part.keyOf a.bare f x with
      | error e => rw [hk'] at hk; cases hk
      | ok k' => rw [hk'] at hk; simp only [Except.toOption, Option.some.injEq] at hk; rw [hk]

theorem idx_writings {a : PArgs} {fs : FS} {infiles : List Str} {idx : Part.Idx} (h : Part.indexAll (a.env (asRead a fs)) infiles [] = .ok idx) :
    (idx.map fun p => writing p.1 p.2.length) = writings a fs infiles := by
  obtain ⟨es, h1, h2⟩ := Part.indexAll_ok _ _ _ _ .nil h
  rw [List.nil_append] at h2
  have hwf : Dict.WF idx := by rw [Dict.WF, h2.keys]; exact Part.nodup_firsts _
  unfold writings
  rw [← eventsAll_keys h1, ← h2.keys, Dict.keys, List.map_map]
  refine List.map_congr_left fun p hp => ?_
  obtain ⟨k, d⟩ := p
  have hd := h2.files k d (Dict.get?_of_mem hwf hp)
  simp only [Function.comp]
  congr 1
  have hlen : d.length = d.keys.length := by simp [Dict.keys]
  rw [hlen, hd, h1.files, ← Part.flatMap_filter_nil (fun fn => decide (k ∈ keysIn a fs fn)), Part.firsts_flatMap, Part.firsts_filter, ← List.countP_eq_length_filter]
  · intro fn hfn
    exact (fileD_keys fn k).2 (by simpa using (List.mem_filter.1 hfn).2)
  · intro fn hfn
    have : ¬ (k ∈ keysIn a fs fn) := by simpa using hfn
    rw [← fileD_keys fn k, ne_eq, Classical.not_not] at this
    rw [this]
    rfl

/-- **C166** for partitions: what is logged, at whatever level, and how the program ends. -/
theorem C166_partition (a : PArgs) (infiles : List Str) (fs : FS) :
    Logs a infiles fs (partitionL a infiles fs).1 (partitionL a infiles fs).2.1 (partitionL a infiles fs).2.2 := by
  have hopen : partitionL a infiles fs = (opening a ++ ((createOutdirL a.outdir >>= fun _ => indexL a infiles [] >>= fun idx => writeL a idx) fs).1,
      ((createOutdirL a.outdir >>= fun _ => indexL a infiles [] >>= fun idx => writeL a idx) fs).2) := rfl
  rw [hopen]
  by_cases hd : isDir fs a.outdir = true
  · have : createOutdirL a.outdir fs = ([⟨.error, lit! "Output directory already exists."⟩], (.error (.exit 1), fs)) := by
      rw [createOutdirL, if_pos hd]; rfl
    simp only [bind, this]
    exact .exists hd
  · have hd' : isDir fs a.outdir = false := by simpa using hd
    cases hm : mkdir a.outdir fs with
    | mk r fs₁ =>
    cases r with
    | error e =>
      have hfs : fs₁ = fs := by
        unfold mkdir at hm
        split at hm
        · split at hm
          · exact ((Prod.mk.inj hm).2).symm
          · cases hm
        · exact ((Prod.mk.inj hm).2).symm
      subst hfs
      have : createOutdirL a.outdir fs₁ = ([⟨.error, lit! "Output directory could not be created."⟩], (.error (.exit 1), fs₁)) := by
        rw [createOutdirL, if_neg hd, hm]; rfl
      simp only [bind, this]
      exact .mkdir hd' hm
    | ok u =>
      have : createOutdirL a.outdir fs = ([], (.ok (), fs₁)) := by
        rw [createOutdirL, if_neg hd, hm]
      simp only [bind, this, List.nil_append]
      rcases indexL_eq a fs₁ infiles [] with ⟨idx, h1, h2, h3⟩ | ⟨pre, fn, post, e, h1, h2, h3, h4⟩
      · rw [h1]
        simp only
        have hw := idx_writings h2
        rcases writeL_eq a idx fs₁ with ⟨fs', h⟩ | ⟨pre, p, post, e, fs', h5, h6⟩
        · rw [h, hw, ← List.append_assoc]
          exact .done hd' hm h3
        · rw [h6]
          simp only
          rw [h5, List.map_append, List.map_cons] at hw
          have := Logs.write (fs' := fs') (e := e) hd' hm h3 hw.symm
          simpa only [List.append_assoc] using this
      · rw [h2]
        simp only
        rw [← List.append_assoc]
        exact .index hd' hm h1 h3 h4

theorem lines_append (v : Nat) (l m : List Msg) : logLines v (l ++ m) = logLines v l ++ logLines v m := by simp [logLines]

theorem lines_low {v : Nat} {l : List Msg} (h : ∀ m ∈ l, m.level.num < 50 - (v : Int) * 10) : logLines v l = [] := by
  unfold logLines
  rw [List.filter_eq_nil_iff.2, List.map_nil]
  intro m hm
  have := h m hm
  simp only [decide_eq_true_eq]
  omega

/-- **C166**: without `-v` a partition logs an error just if the directory is there or cannot be made, and nothing else. -/
theorem C166_quiet (a : PArgs) (infiles : List Str) (fs : FS) :
    logLines 2 (partitionL a infiles fs).1 =
      if isDir fs a.outdir then [lit! "ERROR:root:Output directory already exists."]
      else match (mkdir a.outdir fs).1 with
        | .error _ => [lit! "ERROR:root:Output directory could not be created."]
        | .ok _ => [] := by
  have ho : logLines 2 (opening a) = [] := lines_low (by simp [opening, Level.num])
  have hi : ∀ l : List Str, logLines 2 (l.map indexing) = [] := fun l => lines_low (by simp [indexing, Level.num])
  have hw : ∀ fs, logLines 2 (writings a fs infiles) = [] := fun fs => lines_low (by simp [writings, writing, Level.num])
  have h := C166_partition a infiles fs
  generalize (partitionL a infiles fs).1 = ms at h
  generalize (partitionL a infiles fs).2.1 = r at h
  generalize (partitionL a infiles fs).2.2 = fs' at h
  cases h with
  | «exists» hd => rw [if_pos hd, lines_append, ho]; rfl
  | mkdir hd hm => rw [if_neg (by simp [hd]), hm, lines_append, ho]; rfl
  | index hd hm => rw [if_neg (by simp [hd]), hm, lines_append, lines_append, ho, hi]; rfl
  | @write fs₁ _ pre m post _ hd hm _ hs =>
    have h2 := hw fs₁
    rw [hs, lines_append, show m :: post = [m] ++ post from rfl, lines_append] at h2
    simp only [List.append_eq_nil_iff] at h2
    rw [if_neg (by simp [hd]), hm, lines_append, lines_append, lines_append, ho, hi, h2.1, h2.2.1]
    rfl
  | done hd hm => rw [if_neg (by simp [hd]), hm, lines_append, lines_append, ho, hi, hw]; rfl

/-- **C166**: more `-v` never show less, and what is shown is in the same order. -/
theorem C166_more (v v' : Nat) (h : v ≤ v') (ms : List Msg) : (logLines v ms).Sublist (logLines v' ms) := by
  unfold logLines
  refine List.Sublist.map _ ?_
  induction ms with
  | nil => exact .slnil
  | cons m ms ih =>
    by_cases h1 : 50 - (v : Int) * 10 ≤ m.level.num
    · have h2 : 50 - (v' : Int) * 10 ≤ m.level.num := by omega
      rw [List.filter_cons_of_pos (by simpa using h1), List.filter_cons_of_pos (by simpa using h2)]
      exact ih.cons_cons _
    · rw [List.filter_cons_of_neg (by simpa using h1)]
      by_cases h2 : 50 - (v' : Int) * 10 ≤ m.level.num
      · rw [List.filter_cons_of_pos (by simpa using h2)]
        exact ih.cons _
      · rw [List.filter_cons_of_neg (by simpa using h2)]
        exact ih

/-! ### The messages of sorting -/

/-- what is logged by stages that were all done, or by those up to the one that failed -/
inductive SortLogs (c : XP.PCfg) (n : Nat) (a : Srt.Args) (infile : Str) (xc : Obj) : List Msg → Py Obj → Prop
  | done {y} : Srt.run c n a xc = some (.ok y) → SortLogs c n a infile xc (stages a infile) (.ok y)
  | stopped {i y e} : i < 3 → Srt.run c n (upto a i) xc = some (.ok y) → Srt.run c n (upto a (i + 1)) xc = some (.error e) →
      SortLogs c n a infile xc (stages (upto a (i + 1)) infile) (.error e)

theorem thenL_some {r : Option (List Msg × Py Obj)} {f : Obj → Option (List Msg × Py Obj)} {ms : List Msg} {x : Py Obj} (h : thenL r f = some (ms, x)) :
    (∃ e, r = some (ms, .error e) ∧ x = .error e) ∨ ∃ l y m, r = some (l, .ok y) ∧ f y = some (m, x) ∧ ms = l ++ m := by
  rcases r with _ | ⟨l, e | y⟩
  · cases h
  · cases h; exact .inl ⟨e, rfl, rfl⟩
  · simp only [thenL] at h
    obtain ⟨⟨m, x'⟩, h1, h2⟩ := Option.map_eq_some_iff.1 h
    cases h2
    exact .inr ⟨l, y, m, rfl, h1, rfl⟩

theorem stage_some {t : Str} {r : Run Obj} {ms : List Msg} {x : Py Obj} (h : stage t r = some (ms, x)) : r = some x ∧ ms = [⟨.info, t⟩] := by
  unfold stage at h
  obtain ⟨x', h1, h2⟩ := Option.map_eq_some_iff.1 h
  cases h2
  exact ⟨h1, rfl⟩

theorem opt_stage {p : Prop} [Decidable p] {t : Str} {r : Run Obj} {ms : List Msg} {xc : Obj} {x : Py Obj} (h : (if p then stage t r else some ([], .ok xc)) = some (ms, x)) :
    (if p then r else some (.ok xc)) = some x ∧ ms = if p then [⟨.info, t⟩] else [] := by
  split at h
  · rename_i hp
    obtain ⟨h1, h2⟩ := stage_some h
    rw [if_pos hp, if_pos hp]
    exact ⟨h1, h2⟩
  · rename_i hp
    cases h
    rw [if_neg hp, if_neg hp]
    exact ⟨rfl, rfl⟩

theorem sortRunL_logs (c : XP.PCfg) (n : Nat) (a : Srt.Args) (infile : Str) (xc : Obj) (ms : List Msg) (r : Py Obj)
    (h : sortRunL c n a infile xc = some (ms, r)) : SortLogs c n a infile xc ms r := by
  have hrun : Srt.run c n a xc = some r := by rw [← sortRun_same c n a infile xc, h]; rfl
  have h0 : Srt.run c n (upto a 0) xc = some (.ok xc) := rfl
  unfold sortRunL at h
  rcases thenL_some h with ⟨e, h1, rfl⟩ | ⟨l, y, m, h1, h2, rfl⟩
  · obtain ⟨g1, g2⟩ := opt_stage h1
    have h3 : Srt.run c n (upto a 1) xc = some (.error e) := by
      simp only [Srt.run, upto, g1, Srt.thenRun]
    have : ms = stages (upto a (0 + 1)) infile := by
      rw [g2]
      simp only [stages, upto]
      by_cases hk : a.igtKey = [] <;> simp [hk]
    rw [this]
    exact .stopped (by omega) h0 h3
  · obtain ⟨g1, g2⟩ := opt_stage h1
    have h3 : Srt.run c n (upto a 1) xc = some (.ok y) := by
      simp [Srt.run, upto, g1, Srt.thenRun]
    have hl : l = if a.igtKey = [] then [] else [⟨.info, lit! "Sorting " ++ infile ++ lit! " IGTs"⟩] := by
      rw [g2]
      by_cases hk : a.igtKey = [] <;> simp [hk]
    have tier : ∀ {ms x}, (if a.tierKey ≠ [] then
          stage (lit! "Sorting " ++ infile ++ lit! " tiers by key") (Srt.eachKid (fun igt up => some (Srt.sortKids c a.tierKey igt up)) y [])
        else if a.tierDeps ≠ [] then
          stage (lit! "Sorting " ++ infile ++ lit! " tiers by ref-dependencies") (Srt.eachKid (fun igt _ => Srt.depSort n a.tierDeps igt) y [])
        else some ([], .ok y)) = some (ms, x) →
        Srt.run c n (upto a 2) xc = some x ∧ l ++ ms = stages (upto a 2) infile := by
      intro ms x hx
      simp only [Srt.run, upto, g1, Srt.thenRun, stages, hl]
      by_cases hk : a.tierKey ≠ []
      · rw [if_pos hk] at hx ⊢
        obtain ⟨k1, k2⟩ := stage_some hx
        rw [k1, k2, if_pos hk]
        refine ⟨?_, by simp⟩
        cases x <;> rfl
      · rw [if_neg hk] at hx ⊢
        obtain ⟨k1, k2⟩ := opt_stage hx
        rw [k1, k2, if_neg hk]
        refine ⟨?_, by simp⟩
        cases x <;> rfl
    rcases thenL_some h2 with ⟨e, h4, rfl⟩ | ⟨l', z, m', h4, h5, rfl⟩
    · obtain ⟨k1, k2⟩ := tier h4
      rw [k2]
      exact .stopped (i := 1) (by omega) h3 k1
    · obtain ⟨k1, k2⟩ := tier h4
      obtain ⟨q1, q2⟩ := opt_stage h5
      have hm : l ++ (l' ++ m') = stages a infile := by
        rw [← List.append_assoc, k2, q2]
        simp only [stages, upto]
        by_cases hk : a.itemKey = [] <;> simp [hk]
      rw [hm]
      cases r with
      | ok y' => exact .done hrun
      | error e => exact .stopped (i := 2) (by omega) k1 hrun

/-- **C166** for sorting: nothing is logged if the file cannot be read; otherwise the stages that are asked for, in their order, up to the first that fails if one does. -/
theorem C166_sort (c : XP.PCfg) (look : Nat → Nat) (n : Nat) (a : Srt.Args) (inPlace : Bool) (infile : Str) (fs : FS) (ms : List Msg) (r : Except FErr Str) (fs' : FS)
    (h : sortL c look n a inPlace infile fs = some (ms, (r, fs'))) :
    (∃ s xc y, contents fs infile = some s ∧ loadsXml look s = .ok xc ∧ SortLogs c n a infile xc ms y ∧ ∀ e, y = .error e → r = .error (.py e)) ∨
    ((∀ s xc, contents fs infile = some s → loadsXml look s ≠ .ok xc) ∧ ms = [] ∧ (∃ e, r = .error e) ∧ fs' = fs) := by
  unfold sortL at h
  cases hs : contents fs infile with
  | none =>
    rw [hs] at h
    cases h
    exact .inr ⟨by simp, rfl, ⟨_, rfl⟩, rfl⟩
  | some s =>
    rw [hs] at h
    simp only at h
    cases hx : loadsXml look s with
    | error e =>
      rw [hx] at h
      cases h
      refine .inr ⟨?_, rfl, ⟨_, rfl⟩, rfl⟩
      intro s' xc hs'
      cases hs'
      rw [hx]
      simp
    | ok xc =>
      rw [hx] at h
      simp only at h
      obtain ⟨⟨ms', y⟩, h1, h2⟩ := Option.map_eq_some_iff.1 h
      have h3 := sortRunL_logs c n a infile xc ms' y h1
      cases y with
      | error e =>
        cases h2
        exact .inl ⟨s, xc, _, rfl, hx, h3, fun e he => by cases he; rfl⟩
      | ok y =>
        have hm : ms' = ms := (Prod.mk.inj h2).1
        rw [hm] at h3
        exact .inl ⟨s, xc, _, rfl, hx, h3, fun e he => by cases he⟩

/-- the lines of sorting: without `-v` none, with one all -/
theorem C166_sort_lines (c : XP.PCfg) (look : Nat → Nat) (n : Nat) (a : Srt.Args) (inPlace : Bool) (infile : Str) (fs : FS) (ms : List Msg) (r : Except FErr Str) (fs' : FS)
    (h : sortL c look n a inPlace infile fs = some (ms, (r, fs'))) :
    logLines 2 ms = [] ∧ ∀ v, 3 ≤ v → logLines v ms = ms.map fun m => lit! "INFO:root:" ++ m.text := by
  have hi : ∀ m ∈ ms, m.level = .info := by
    have hst : ∀ a, ∀ m ∈ stages a infile, m.level = .info := by
      intro a m hm
      unfold stages at hm
      simp only [List.mem_append] at hm
      rcases hm with (hm | hm) | hm
      · split at hm
        · simp at hm
        · simp only [List.mem_singleton] at hm; rw [hm]
      · split at hm
        · simp only [List.mem_singleton] at hm; rw [hm]
        · split at hm
          · simp only [List.mem_singleton] at hm; rw [hm]
          · simp at hm
      · split at hm
        · simp at hm
        · simp only [List.mem_singleton] at hm; rw [hm]
    rcases C166_sort c look n a inPlace infile fs ms r fs' h with ⟨s, xc, y, -, -, h3, -⟩ | ⟨-, rfl, -⟩
    · cases h3 with
      | done => exact hst _
      | stopped => exact hst _
    · simp
  refine ⟨lines_low fun m hm => by rw [hi m hm]; decide, fun v hv => ?_⟩
  unfold logLines
  rw [List.filter_eq_self.2]
  · refine List.map_congr_left fun m hm => ?_
    rw [hi m hm]
    rfl
  · intro m hm
    have : 50 - (v : Int) * 10 ≤ Level.num .info := by
      simp only [Level.num]
      omega
    rw [hi m hm]
    exact decide_eq_true this

/-! ### Command lines -/

theorem natOf_some {ns : Dict Str Cmd.Val} {d : Str} {n : Nat} (h : Dict.get? ns d = some (.nat n)) : natOf ns d = n := by
  unfold natOf
  rw [h]

/-- **C166** of the whole program, with options written in full: `xigt sort` logs nothing without `-v`, and with it the stages that it says. -/
theorem C166_command_sort (w : World) (xs ys : List Given) (hx : Options Cmd.sortOptions xs) (hy : Options Cmd.sortOptions ys) (infile : Str)
    (hf : infile.head? ≠ some '-') (hb : ¬ (saidAny [lit! "--tier-key"] (xs ++ ys) ∧ saidAny [lit! "--tier-deps"] (xs ++ ys))) (fs : FS) (lines : List Str) (e : Ended) (fs' : FS)
    (h : xigtL w (lit! "sort" :: (xs.flatMap Given.write ++ infile :: ys.flatMap Given.write)) fs = some (lines, (e, fs'))) :
    xigtF w (lit! "sort" :: (xs.flatMap Given.write ++ infile :: ys.flatMap Given.write)) fs = some (e, fs') ∧
    ∃ ms r, sortL w.path w.look w.steps (sortSaid (xs ++ ys)) (saidAny [lit! "--in-place"] (xs ++ ys)) infile fs = some (ms, (r, fs')) ∧ e = ended r ∧
      (¬ saidAny [lit! "-v", lit! "--verbose"] (xs ++ ys) → lines = []) ∧
      (saidAny [lit! "-v", lit! "--verbose"] (xs ++ ys) → lines = ms.map fun m => lit! "INFO:root:" ++ m.text) := by
  have hr := (Cmd.C153_sort xs ys hx hy infile).1 hf
  have hl := Cmd.head_line sort_named hx (rest := infile :: ys.flatMap Given.write) (by
    intro e
    cases e
    exact hf rfl)
  obtain ⟨ns, h0, h1, h2, h3, h4, h5, h6, h7⟩ := hr.2 (by simpa [saidAny] using hb)
  have e1 : strOf ns (lit! "tier_deps") = lastWord [lit! "--tier-deps"] (xs ++ ys) :=
    strOf_last (Cmd.argsOf_length2 (Cmd.options_append hx hy) (by simp [Cmd.sortOptions])) h6 (by simp)
  have e2 : sortArgs ns = sortSaid (xs ++ ys) := by
    unfold sortArgs sortSaid
    rw [listOf_all h4, listOf_all h5, listOf_all h7, e1]
    rfl
  have e3 : flagOf ns (lit! "in_place") = saidAny [lit! "--in-place"] (xs ++ ys) := by
    unfold flagOf saidAny
    rw [h3]
  have e4 : strOf ns (lit! "infile") = some infile := by
    unfold strOf
    rw [h1]
  have hc : Cmd.xigt (lit! "sort" :: (xs.flatMap Given.write ++ infile :: ys.flatMap Given.write)) = .ok (.sort, some ns) := by
    have := Cmd.C152_script .sort _ _ rfl hl
    rw [h0] at this
    exact this
  refine ⟨?_, ?_⟩
  · rw [← C166_same w _ fs .sort ns hc (.inl rfl), h]; rfl
  · unfold xigtL at h
    rw [hc] at h
    simp only [e2, e3, e4, Option.getD_some] at h
    obtain ⟨⟨ms, r, fs₂⟩, g1, g2⟩ := Option.map_eq_some_iff.1 h
    obtain ⟨q1, q2⟩ := C166_sort_lines _ _ _ _ _ _ _ _ _ _ g1
    simp only [Prod.mk.injEq] at g2
    obtain ⟨g2, g3, rfl⟩ := g2
    rw [natOf_some h2] at g2
    refine ⟨ms, r, g1, g3.symm, fun hv => ?_, fun hv => ?_⟩
    · have : argsOf [lit! "-v", lit! "--verbose"] (xs ++ ys) = [] := by simpa [saidAny] using hv
      rw [← g2, this]
      exact q1
    · have : argsOf [lit! "-v", lit! "--verbose"] (xs ++ ys) ≠ [] := by simpa [saidAny] using hv
      have : 1 ≤ (argsOf [lit! "-v", lit! "--verbose"] (xs ++ ys)).length := List.length_pos_iff.2 this
      rw [← g2]
      exact q2 _ (by omega)

/-- **C166** of the whole program, with options written in full: what `xigt partition` logs. -/
theorem C166_command_partition (w : World) (xs ys : List Given) (hx : Options Cmd.partitionOptions xs) (hy : Options Cmd.partitionOptions ys) (outdir : Str)
    (infiles : List Str) (hf : ∀ a ∈ outdir :: infiles, a.head? ≠ some '-') (k : Str) (hk : lastWord [lit! "--key-path"] (xs ++ ys) = some k) (fs : FS) :
    ∃ ms r fs', Logs ⟨w.path, k, (lastWord [lit! "--default-key"] (xs ++ ys)).getD (lit! "---"), outdir, w.look⟩ infiles fs ms r fs' ∧
      xigtL w (lit! "partition" :: (xs.flatMap Given.write ++ (outdir :: infiles ++ ys.flatMap Given.write))) fs =
        some (logLines (2 + (argsOf [lit! "-v", lit! "--verbose"] (xs ++ ys)).length) ms, (ended (r.map fun _ => []), fs')) ∧
      xigtF w (lit! "partition" :: (xs.flatMap Given.write ++ (outdir :: infiles ++ ys.flatMap Given.write))) fs = some (ended (r.map fun _ => []), fs') := by
  obtain ⟨ns, h0, h1, h2, h3, h4, h5⟩ := (Cmd.C153_partition xs ys hx hy outdir infiles).1 hf
  have hl := Cmd.head_line partition_named hx (rest := outdir :: infiles ++ ys.flatMap Given.write) (by
    intro e
    cases e
    exact hf (lit! "--") (by simp) rfl)
  have e1 : strOf ns (lit! "key_path") = some k :=
    (strOf_last (Cmd.argsOf_length2 (Cmd.options_append hx hy) (by simp [Cmd.partitionOptions])) h4 (by simp)).trans hk
  have e2 := strOf_lastD (Cmd.argsOf_length2 (Cmd.options_append hx hy) (by simp [Cmd.partitionOptions])) h5
  have e3 : strOf ns (lit! "outdir") = some outdir := by unfold strOf; rw [h1]
  have e4 : listOf ns (lit! "infiles") = infiles := by unfold listOf; rw [h2]
  have hc : Cmd.xigt (lit! "partition" :: (xs.flatMap Given.write ++ (outdir :: infiles ++ ys.flatMap Given.write))) = .ok (.partition, some ns) := by
    have := Cmd.C152_script .partition _ _ rfl hl
    rw [h0] at this
    exact this
  have hL : xigtL w (lit! "partition" :: (xs.flatMap Given.write ++ (outdir :: infiles ++ ys.flatMap Given.write))) fs = some
      (logLines (2 + (argsOf [lit! "-v", lit! "--verbose"] (xs ++ ys)).length)
        (partitionL ⟨w.path, k, (lastWord [lit! "--default-key"] (xs ++ ys)).getD (lit! "---"), outdir, w.look⟩ infiles fs).1,
        (ended ((partitionL ⟨w.path, k, (lastWord [lit! "--default-key"] (xs ++ ys)).getD (lit! "---"), outdir, w.look⟩ infiles fs).2.1.map fun _ => []),
          (partitionL ⟨w.path, k, (lastWord [lit! "--default-key"] (xs ++ ys)).getD (lit! "---"), outdir, w.look⟩ infiles fs).2.2)) := by
    unfold xigtL
    rw [hc]
    simp only [partitionLC, e1, e2, e3, e4, Option.getD_some, natOf_some h3]
  refine ⟨_, _, _, C166_partition _ infiles fs, hL, ?_⟩
  rw [← C166_same w _ fs .partition ns hc (.inr rfl), hL]
  rfl

end

/-! ### Examples -/

section
attribute [local instance] asciiUni asciiXml

/-- what is logged -/
def exLog (argv : List Str) (fs : FS) : Option (List Str × Nat) := (xigtL exWorld argv fs).map fun r => (r.1, r.2.1.status)

/-- partitions: the keys with the numbers of their files; a file that is not there is the last that is named; without `-v` errors only -/
example : exLog [lit! "partition", lit! "-v", lit! "--key-path=@doc", lit! "out", lit! "in.xml", lit! "in.xml"] (twoDocs (lit! "a") (lit! "b")) =
      some ([lit! "INFO:root:Indexing in.xml", lit! "INFO:root:Indexing in.xml", lit! "INFO:root:Writing a (grouped from 1 files)", lit! "INFO:root:Writing b (grouped from 1 files)"], 0) ∧
    exLog [lit! "partition", lit! "-vv", lit! "--key-path=@doc", lit! "out", lit! "in.xml", lit! "no.xml", lit! "in.xml"] (twoDocs (lit! "a") (lit! "b")) =
      some ([lit! "DEBUG:root:Partitioning with path '@doc'", lit! "DEBUG:root:Writing to out", lit! "INFO:root:Indexing in.xml", lit! "INFO:root:Indexing no.xml"], 1) ∧
    exLog [lit! "partition", lit! "--key-path=@doc", lit! ".", lit! "in.xml"] (twoDocs (lit! "a") (lit! "b")) = some ([lit! "ERROR:root:Output directory already exists."], 1) ∧
    exLog [lit! "partition", lit! "--key-path=@doc", lit! "in.xml", lit! "in.xml"] (twoDocs (lit! "a") (lit! "b")) = some ([lit! "ERROR:root:Output directory could not be created."], 1) ∧
    exLog [lit! "partition", lit! "--key-path=@doc", lit! "out", lit! "no.xml"] (twoDocs (lit! "a") (lit! "b")) = some ([], 1) := by
  refine ⟨by decide +kernel, by decide +kernel, by decide +kernel, by decide +kernel, by decide +kernel⟩

/-- sorting: the stages that are asked for; none without `-v` or without the file -/
example : exLog [lit! "sort", lit! "--item-key=@id", lit! "-v", lit! "--igt-key=@id", lit! "in.xml"] (twoDocs (lit! "a") (lit! "b")) =
      some ([lit! "INFO:root:Sorting in.xml IGTs", lit! "INFO:root:Sorting in.xml items by key"], 0) ∧
    exLog [lit! "sort", lit! "--igt-key=@id", lit! "in.xml"] (twoDocs (lit! "a") (lit! "b")) = some ([], 0) ∧
    exLog [lit! "sort", lit! "-v", lit! "--igt-key=@id", lit! "no.xml"] (twoDocs (lit! "a") (lit! "b")) = some ([], 1) := by
  refine ⟨by decide +kernel, by decide +kernel, by decide +kernel⟩

/-- the hypotheses of the theorems on command lines are met -/
example : Options Cmd.partitionOptions [{ name := lit! "-v" }, { name := lit! "--key-path", args := [lit! "@doc"], form := .eq }] ∧
    lastWord [lit! "--key-path"] [{ name := lit! "-v" }, { name := lit! "--key-path", args := [lit! "@doc"], form := .eq }] = some (lit! "@doc") ∧
    Options Cmd.sortOptions [{ name := lit! "-v" }, { name := lit! "--igt-key", args := [lit! "@id"], form := .eq }] := by
  refine ⟨?_, by decide, ?_⟩
  · intro g hg
    simp only [List.mem_cons, List.not_mem_nil, or_false] at hg
    rcases hg with rfl | rfl
    · exact ⟨by decide, by simp [Given.Well]⟩
    · exact ⟨by decide, by simp [Given.Well]⟩
  · intro g hg
    simp only [List.mem_cons, List.not_mem_nil, or_false] at hg
    rcases hg with rfl | rfl
    · exact ⟨by decide, by simp [Given.Well]⟩
    · exact ⟨by decide, by simp [Given.Well]⟩

end
end Xigt.Files
