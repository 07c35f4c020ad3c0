import Verif.Files.CommandProps
import Verif.Files.Sort
import Verif.Files.Partition
import Verif.Scripts.CommandExamples
/-
C157: the command does what its command line says.  For each script, and all command lines written as in C153 (options in any
order, with their arguments apart, after `=` or glued, before and after the files), `xigt` does what the script does with the
arguments that are said, and nothing else; from this, and from what is known about the scripts on files (C106, C107, C108, C112), what
happens to the files is said by the command line alone.
-/

set_option linter.unusedSectionVars false

namespace Xigt.Cmd

/-! ### What is said, as the scripts see it (spec) -/

/-- the last argument of an option -/
def lastWord (names : List Str) (gs : List Given) : Option Str := (argsOf names gs).getLast?.bind List.head?

/-- all arguments of an option -/
def allWords (names : List Str) (gs : List Given) : List Str := (argsOf names gs).flatten

/-- whether an option is given -/
def saidAny (names : List Str) (gs : List Given) : Bool := decide (argsOf names gs ≠ [])

/-- what options are called: two characters at least, and not `--` -/
def Named (os : List (Str × Nat)) : Prop := ∀ o ∈ os, 2 ≤ o.1.length ∧ o.1 ≠ lit! "--"

theorem head_write {g : Given} (h2 : 2 ≤ g.name.length) (h : g.name ≠ lit! "--") : g.write.head? ≠ some (lit! "--") := by
  have key : ∀ s, g.name ++ s ≠ lit! "--" := by
    intro s hs
    have hl : (g.name ++ s).length = 2 := by rw [hs]; rfl
    rw [List.length_append] at hl
    have : s = [] := List.eq_nil_of_length_eq_zero (by omega)
    rw [this, List.append_nil] at hs
    exact h hs
  unfold Given.write
  cases hf : g.form with
  | apart => simpa using h
  | eq => simpa using key _
  | glued => simpa using key _
  | more n => simpa using key _

theorem write_ne {g : Given} : g.write ≠ [] := by
  unfold Given.write
  cases g.form <;> simp

theorem head_line {os : List (Str × Nat)} (ho : Named os) {xs : List Given} (hx : Options os xs) {rest : List Str} (hr : rest.head? ≠ some (lit! "--")) :
    (xs.flatMap Given.write ++ rest).head? ≠ some (lit! "--") := by
  cases xs with
  | nil => simpa using hr
  | cons g xs =>
    obtain ⟨h1, h2⟩ := ho _ (hx g (by simp)).1
    have h3 := head_write (g := g) h1 h2
    have h4 := write_ne (g := g)
    rw [List.flatMap_cons]
    cases hw : g.write with
    | nil => exact absurd hw h4
    | cons a l => rw [hw] at h3; simpa using h3

theorem named_of {os : List (Str × Nat)} (h : (os.all fun o => decide (2 ≤ o.1.length) && decide (o.1 ≠ lit! "--")) = true) : Named os := by
  intro o ho
  have := List.all_eq_true.1 h o ho
  simpa using this

theorem lastOf_some {names : List Str} {gs : List Given} (h : ∀ x ∈ argsOf names gs, x.length = 1) (d : Val) :
    lastOf d names gs = match lastWord names gs with
      | some s => .str s
      | none => d := by
  unfold lastOf lastWord
  cases hl : (argsOf names gs).getLast? with
  | none => rfl
  | some x =>
    have := h x (List.mem_of_getLast? hl)
    cases x with
    | nil => simp at this
    | cons a l => rfl

end Xigt.Cmd

namespace Xigt.Files
open Cmd (Given Options argsOf said1 lastWord allWords saidAny)

/-- what `xigt sort` is to sort by (spec) -/
def sortSaid [Uni] (gs : List Given) : Srt.Args where
  igtKey := allWords [lit! "--igt-key"] gs
  tierKey := allWords [lit! "--tier-key"] gs
  tierDeps := match lastWord [lit! "--tier-deps"] gs with
    | some (c :: cs) => (splitComma (c :: cs)).map strip
    | _ => []
  itemKey := allWords [lit! "--item-key"] gs

theorem listOf_all {ns : Dict Str Cmd.Val} {d : Str} {names : List Str} {gs : List Given} (h : Dict.get? ns d = some (Cmd.allOf names gs)) :
    listOf ns d = allWords names gs := by
  unfold listOf allWords
  rw [h]
  unfold Cmd.allOf
  cases argsOf names gs <;> rfl

theorem strOf_last {ns : Dict Str Cmd.Val} {d : Str} {names : List Str} {gs : List Given} (hl : ∀ x ∈ argsOf names gs, x.length = 1) {v : Cmd.Val}
    (h : Dict.get? ns d = some (Cmd.lastOf v names gs)) (hv : ∀ s, v ≠ .str s) : strOf ns d = lastWord names gs := by
  unfold strOf
  rw [h, Cmd.lastOf_some hl]
  cases lastWord names gs with
  | some s => rfl
  | none =>
    cases v with
    | str s => exact absurd rfl (hv s)
    | _ => rfl

theorem strOf_lastD {ns : Dict Str Cmd.Val} {d : Str} {names : List Str} {gs : List Given} (hl : ∀ x ∈ argsOf names gs, x.length = 1) {s : Str}
    (h : Dict.get? ns d = some (Cmd.lastOf (.str s) names gs)) : strOf ns d = some ((lastWord names gs).getD s) := by
  unfold strOf
  rw [h, Cmd.lastOf_some hl]
  cases lastWord names gs <;> rfl

section
variable [Uni] [XmlLex]

theorem xigtF_ok {w : World} {s : Cmd.Script} {P : Cmd.Parser} {l : List Str} {fs : FS} {ns : Dict Str Cmd.Val} (hP : s.parser = some P)
    (hl : l.head? ≠ some (lit! "--")) (h : Cmd.parseArgs P l = .ok ns) : xigtF w (s.word :: l) fs = match s with
    | .sort => (sortC w ns fs).map fun r => (ended r.1, r.2)
    | .partition => silent (partitionC w ns fs)
    | .query => some (queryC w ns fs)
    | .validate => some (validateC w ns fs)
    | .import => silent (importC w ns fs)
    | .export => silent (exportC w ns fs)
    | .process => some (⟨1, []⟩, fs) := by
  unfold xigtF
  rw [Cmd.C152_script s P l hP hl, h]
  cases s <;> rfl

theorem xigtF_usage {w : World} {s : Cmd.Script} {P : Cmd.Parser} {l : List Str} {fs : FS} (hP : s.parser = some P)
    (hl : l.head? ≠ some (lit! "--")) (h : Cmd.parseArgs P l = .error .usage) : xigtF w (s.word :: l) fs = some (⟨2, []⟩, fs) := by
  unfold xigtF
  rw [Cmd.C152_script s P l hP hl, h]
  rfl

/-! ### Sorting -/

theorem sort_named : Cmd.Named Cmd.sortOptions := Cmd.named_of (by decide)

/-- **C157**, sorting: `xigt sort` with options before and after the file sorts that file by the keys that are given, in place just if
that is said; keys and an order of tiers together are a mistake, with status 2, and nothing changes -/
theorem C157_sort (w : World) (xs ys : List Given) (hx : Options Cmd.sortOptions xs) (hy : Options Cmd.sortOptions ys) (infile : Str)
    (hf : infile.head? ≠ some '-') (fs : FS) :
    xigtF w (lit! "sort" :: (xs.flatMap Given.write ++ infile :: ys.flatMap Given.write)) fs =
      if saidAny [lit! "--tier-key"] (xs ++ ys) ∧ saidAny [lit! "--tier-deps"] (xs ++ ys) then some (⟨2, []⟩, fs)
      else (sortF w.path w.look w.steps (sortSaid (xs ++ ys)) (saidAny [lit! "--in-place"] (xs ++ ys)) infile fs).map fun r => (ended r.1, r.2) := by
  have hr := (Cmd.C153_sort xs ys hx hy infile).1 hf
  have hl := Cmd.head_line sort_named hx (rest := infile :: ys.flatMap Given.write) (by
    intro e
    cases e
    exact hf rfl)
  by_cases hb : argsOf [lit! "--tier-key"] (xs ++ ys) ≠ [] ∧ argsOf [lit! "--tier-deps"] (xs ++ ys) ≠ []
  · rw [if_pos (by simpa [saidAny] using hb)]
    exact xigtF_usage (s := .sort) rfl hl (hr.1 hb)
  · rw [if_neg (by simpa [saidAny] using hb)]
    obtain ⟨ns, h0, h1, h2, h3, h4, h5, h6, h7⟩ := hr.2 hb
    have e1 : strOf ns (lit! "tier_deps") = lastWord [lit! "--tier-deps"] (xs ++ ys) :=
      strOf_last (Cmd.argsOf_length2 (Cmd.options_append hx hy) (by simp [Cmd.sortOptions])) h6 (by simp)
    have e2 : sortArgs ns = sortSaid (xs ++ ys) := by
      unfold sortArgs sortSaid
      rw [listOf_all h4, listOf_all h5, listOf_all h7, e1]
      rfl
    have e3 : flagOf ns (lit! "in_place") = saidAny [lit! "--in-place"] (xs ++ ys) := by
      unfold flagOf saidAny
      rw [h3]
    have e4 : strOf ns (lit! "infile") = some infile := by
      unfold strOf
      rw [h1]
    have := xigtF_ok (w := w) (s := .sort) (fs := fs) rfl hl h0
    refine this.trans ?_
    simp only [sortC, e2, e3, e4, Option.getD_some]

/-! ### Partitions -/

theorem partition_named : Cmd.Named Cmd.partitionOptions := Cmd.named_of (by decide)

/-- **C157**, partitions: by the last path that is given, with the last default key, the files that are named into the directory that is named -/
theorem C157_partition (w : World) (xs ys : List Given) (hx : Options Cmd.partitionOptions xs) (hy : Options Cmd.partitionOptions ys) (outdir : Str)
    (infiles : List Str) (hf : ∀ a ∈ outdir :: infiles, a.head? ≠ some '-') (k : Str) (hk : lastWord [lit! "--key-path"] (xs ++ ys) = some k) (fs : FS) :
    xigtF w (lit! "partition" :: (xs.flatMap Given.write ++ (outdir :: infiles ++ ys.flatMap Given.write))) fs =
      silent (partition ⟨w.path, k, (lastWord [lit! "--default-key"] (xs ++ ys)).getD (lit! "---"), outdir, w.look⟩ infiles fs) := by
  obtain ⟨ns, h0, h1, h2, h3, h4, h5⟩ := (Cmd.C153_partition xs ys hx hy outdir infiles).1 hf
  have hl := Cmd.head_line partition_named hx (rest := outdir :: infiles ++ ys.flatMap Given.write) (by
    intro e
    cases e
    exact hf (lit! "--") (by simp) rfl)
  have e1 : strOf ns (lit! "key_path") = some k :=
    (strOf_last (Cmd.argsOf_length2 (Cmd.options_append hx hy) (by simp [Cmd.partitionOptions])) h4 (by simp)).trans hk
  have e2 := strOf_lastD (Cmd.argsOf_length2 (Cmd.options_append hx hy) (by simp [Cmd.partitionOptions])) h5
  have e3 : strOf ns (lit! "outdir") = some outdir := by unfold strOf; rw [h1]
  have e4 : listOf ns (lit! "infiles") = infiles := by unfold listOf; rw [h2]
  refine (xigtF_ok (w := w) (s := .partition) (fs := fs) rfl hl h0).trans ?_
  simp only [partitionC, e1, e2, e3, e4, Option.getD_some]

/-! ### Queries -/

theorem query_named : Cmd.Named Cmd.queryOptions := Cmd.named_of (by decide)

theorem optOf_entry (o : Qry.Opt) : optOf (Cmd.entry o) = some o := by
  cases o with
  | description d => rfl
  | act a => cases a <;> rfl

/-- how `query` ends, as a status -/
def queryStatus : Qry.Ending → Nat
  | .done => 0
  | .usage => 2
  | .raised _ => 1

/-- **C157**, queries: what is asked, in the order of the options, of the files that are named, in that order; no file changes -/
theorem C157_query (w : World) (xs ys : List Given) (hx : Options Cmd.queryOptions xs) (hy : Options Cmd.queryOptions ys) (f : Str)
    (infiles : List Str) (hf : ∀ a ∈ f :: infiles, a.head? ≠ some '-') (fs : FS) :
    ∃ out e, Qry.queryMain w.fmt w.path ⟨(said1 (xs ++ ys)).filterMap Cmd.asked, lastWord [lit! "-D", lit! "--file-description"] (xs ++ ys),
        saidAny [lit! "--basename"] (xs ++ ys), (f :: infiles).map fun fn => (fn, queryFile w fs fn)⟩ = (out, e) ∧
      xigtF w (lit! "query" :: (xs.flatMap Given.write ++ (f :: infiles ++ ys.flatMap Given.write))) fs =
        some (⟨queryStatus e, out.flatMap fun l => l ++ ['\n']⟩, fs) := by
  obtain ⟨ns, h0, h1, h2, h3, h4, h5⟩ := (Cmd.C153_query xs ys hx hy f infiles).1 hf
  have hl := Cmd.head_line query_named hx (rest := f :: infiles ++ ys.flatMap Given.write) (by
    intro e
    cases e
    exact hf (lit! "--") (by simp) rfl)
  have e1 : strOf ns (lit! "file_description") = lastWord [lit! "-D", lit! "--file-description"] (xs ++ ys) :=
    strOf_last (Cmd.argsOf_length2 (Cmd.options_append hx hy) (by simp [Cmd.queryOptions])) h5 (by simp)
  have e2 : flagOf ns (lit! "basename") = saidAny [lit! "--basename"] (xs ++ ys) := by
    unfold flagOf saidAny
    rw [h4]
  have e3 : listOf ns (lit! "infiles") = f :: infiles := by unfold listOf; rw [h1]
  have e4 : agendaOf ns = (said1 (xs ++ ys)).filterMap Cmd.asked := by
    unfold agendaOf
    rw [h2]
    by_cases hn : (said1 (xs ++ ys)).filterMap Cmd.asked = []
    · rw [if_pos hn, hn]
    · rw [if_neg hn]
      simp only [List.filterMap_map]
      rw [show optOf ∘ Cmd.entry = some from funext optOf_entry, List.filterMap_some]
  refine ⟨_, _, rfl, ?_⟩
  refine (xigtF_ok (w := w) (s := .query) (fs := fs) rfl hl h0).trans ?_
  simp only [queryC, e1, e2, e3, e4]
  rfl

/-! ### Validating -/

theorem validate_named : Cmd.Named Cmd.validateOptions := Cmd.named_of (by decide)

/-- **C157**, validating: the status is that of C121 and the output that of C161 for the options and the files that are named; no file changes -/
theorem C157_validate (w : World) (xs ys : List Given) (hx : Options Cmd.validateOptions xs) (hy : Options Cmd.validateOptions ys) (f : Str)
    (infiles : List Str) (hf : ∀ a ∈ f :: infiles, a.head? ≠ some '-') (fs : FS) :
    xigtF w (lit! "validate" :: (xs.flatMap Given.write ++ (f :: infiles ++ ys.flatMap Given.write))) fs =
      some (⟨Vld.exitStatus ((said1 (xs ++ ys)).filterMap Cmd.flagOf) w.depth ((f :: infiles).map (validateFile w fs)),
        (Vld.stdout (saidAny [lit! "--color"] (xs ++ ys)) ((said1 (xs ++ ys)).filterMap Cmd.flagOf) w.depth
          ((f :: infiles).map fun fn => (fn, validateFile w fs fn))).flatMap fun l => l ++ ['\n']⟩, fs) := by
  obtain ⟨ns, h0, h1, h2, h3⟩ := (Cmd.C153_validate xs ys hx hy f infiles).1 hf
  have hl := Cmd.head_line validate_named hx (rest := f :: infiles ++ ys.flatMap Given.write) (by
    intro e
    cases e
    exact hf (lit! "--") (by simp) rfl)
  have e1 : natOf ns (lit! "verbosity") = Vld.verbosity ((said1 (xs ++ ys)).filterMap Cmd.flagOf) := by unfold natOf; rw [h2]
  have e2 : flagOf ns (lit! "color") = saidAny [lit! "--color"] (xs ++ ys) := by
    unfold flagOf saidAny
    rw [h3]
  have e3 : listOf ns (lit! "files") = f :: infiles := by unfold listOf; rw [h1]
  refine (xigtF_ok (w := w) (s := .validate) (fs := fs) rfl hl h0).trans ?_
  simp only [validateC, e1, e2, e3, Vld.outFiles_run]
  unfold Vld.exitStatus Vld.logLevel Vld.run Vld.stdout Vld.logLevel
  have hm : ((f :: infiles).map fun fn => (fn, validateFile w fs fn)).map Prod.snd = (f :: infiles).map (validateFile w fs) := by
    rw [List.map_map]; rfl
  rw [hm]
  simp only [List.map_cons, List.isEmpty_cons, Bool.false_eq_true, if_false, bind, Except.bind]
  cases Vld.runFiles (60 - Vld.verbosity (List.filterMap Cmd.flagOf (said1 (xs ++ ys))) * 10) w.depth (validateFile w fs f :: List.map (validateFile w fs) infiles) [] with
  | error e => rfl
  | ok bs =>
    simp only
    cases hb : bs.all id <;> simp

/-! ### Import and export -/

theorem format_named : Cmd.Named Cmd.formatOptions := Cmd.named_of (by decide)

theorem format_head {gs : List Given} (h : Options Cmd.formatOptions gs) : (gs.flatMap Given.write).head? ≠ some (lit! "--") := by
  have := Cmd.head_line format_named h (rest := []) (by simp)
  simpa using this

theorem format_strs {f : Str} {fs : List Str} {gs : List Given} (h : Options Cmd.formatOptions gs) {ns : Dict Str Cmd.Val} {l : List Str}
    (hr : Cmd.FormatReceives (f :: fs) (Cmd.parseArgs (Cmd.formatParser (f :: fs)) l) gs) (hn : Cmd.parseArgs (Cmd.formatParser (f :: fs)) l = .ok ns) :
    strOf ns (lit! "input") = lastWord [lit! "-i", lit! "--input"] gs ∧ strOf ns (lit! "output") = lastWord [lit! "-o", lit! "--output"] gs ∧
    strOf ns (lit! "format") = some ((lastWord [lit! "-f", lit! "--format"] gs).getD f) ∧ strOf ns (lit! "config") = lastWord [lit! "-c", lit! "--config"] gs := by
  obtain ⟨ns', h0, h1, h2, h3, h4, -⟩ := hr
  rw [hn] at h0
  cases h0
  have hlen : ∀ names, (∀ n ∈ names, ∀ k, (n, k) ∈ Cmd.formatOptions → k = 1) → ∀ x ∈ argsOf names gs, x.length = 1 := fun names hn => Cmd.argsOf_length2 h hn
  exact ⟨strOf_last (hlen _ (by simp [Cmd.formatOptions])) h1 (by simp), strOf_last (hlen _ (by simp [Cmd.formatOptions])) h2 (by simp),
    strOf_lastD (hlen _ (by simp [Cmd.formatOptions])) h3, strOf_last (hlen _ (by simp [Cmd.formatOptions])) h4 (by simp)⟩

/-- that a last word is said -/
theorem said_of_last {names : List Str} {gs : List Given} {s : Str} (h : lastWord names gs = some s) : argsOf names gs ≠ [] := by
  unfold lastWord at h
  intro e
  rw [e] at h
  cases h

/-- **C157**, import: by the last format that is said, Toolbox if none is; the last input into the last output, with the options of the last
configuration.  (For Odin, if these can be read and the suffix is a string.) -/
theorem C157_import (w : World) (gs : List Given) (h : Options Cmd.formatOptions gs) (hf : Cmd.FormatsIn [lit! "toolbox", lit! "odin"] gs) (i o : Str)
    (hi : lastWord [lit! "-i", lit! "--input"] gs = some i) (ho : lastWord [lit! "-o", lit! "--output"] gs = some o) (fs : FS) :
    ((lastWord [lit! "-f", lit! "--format"] gs).getD (lit! "toolbox") ≠ lit! "odin" →
      xigtF w (lit! "import" :: gs.flatMap Given.write) fs =
        silent (Opt.runToolbox w.json w.toolbox (lastWord [lit! "-c", lit! "--config"] gs) i o fs)) ∧
    ((lastWord [lit! "-f", lit! "--format"] gs).getD (lit! "toolbox") = lit! "odin" → ∀ v od suffix,
      Opt.readConfig w.json (lastWord [lit! "-c", lit! "--config"] gs) fs = (.ok v, fs) → Opt.odinOptions v = .ok od → Dict.get? od Opt.SUF = some (.str suffix) →
      xigtF w (lit! "import" :: gs.flatMap Given.write) fs = silent (odinImport (w.odin od) suffix i o fs)) := by
  have hr := (Cmd.C153_import gs h).1 ⟨said_of_last hi, said_of_last ho, hf⟩
  have hr' := hr
  obtain ⟨ns, h0, -⟩ := hr'
  obtain ⟨e1, e2, e3, e4⟩ := format_strs h hr h0
  rw [hi] at e1
  rw [ho] at e2
  have key := xigtF_ok (w := w) (s := .import) (fs := fs) rfl (format_head h) h0
  constructor
  · intro hne
    refine key.trans ?_
    simp only [importC, e1, e2, e3, e4, Option.getD_some]
    rw [if_neg (by simpa using hne)]
  · intro heq v od suffix hv hod hsuf
    refine key.trans ?_
    simp only [importC, e1, e2, e3, e4, Option.getD_some, heq, if_true]
    rw [bind_eq hv, hod, lift_bind]
    simp only [hsuf, Option.bind_some, Opt.V.str?]

/-- **C157**, export: by the last format that is said, LaTeX if none is; the last input into the last output.  (If the configuration can be read
and the input is a corpus.) -/
theorem C157_export (w : World) (gs : List Given) (h : Options Cmd.formatOptions gs) (hf : Cmd.FormatsIn [lit! "latex", lit! "itsdb"] gs) (i o : Str)
    (hi : lastWord [lit! "-i", lit! "--input"] gs = some i) (ho : lastWord [lit! "-o", lit! "--output"] gs = some o) (fs : FS) (v : Option Opt.V) (t : Str) (x : Opened)
    (hv : exportConfig w (lastWord [lit! "-c", lit! "--config"] gs) fs = (.ok v, fs)) (ht : contents fs i = some t) (hx : openText w.look t = .ok x) :
    ((lastWord [lit! "-f", lit! "--format"] gs).getD (lit! "latex") ≠ lit! "itsdb" → ∀ cfg, w.latex v = .ok cfg →
      xigtF w (lit! "export" :: gs.flatMap Given.write) fs = silent (exportF cfg w.depth w.look i o fs)) ∧
    ((lastWord [lit! "-f", lit! "--format"] gs).getD (lit! "latex") = lit! "itsdb" →
      xigtF w (lit! "export" :: gs.flatMap Given.write) fs = silent (w.itsdb v x o fs)) := by
  have hr := (Cmd.C153_export gs h).1 ⟨said_of_last hi, said_of_last ho, hf⟩
  have hr' := hr
  obtain ⟨ns, h0, -⟩ := hr'
  obtain ⟨e1, e2, e3, e4⟩ := format_strs h hr h0
  rw [hi] at e1
  rw [ho] at e2
  have key := xigtF_ok (w := w) (s := .export) (fs := fs) rfl (format_head h) h0
  have hread : readFile i fs = (.ok t, fs) := by simp [readFile, ht]
  have hgo : exportC w ns fs = (if strOf ns (lit! "format") = some (lit! "itsdb") then w.itsdb v x o else do
      let cfg ← lift (w.latex v)
      exportF cfg w.depth w.look i o) fs := by
    have e : exportC w ns = (exportConfig w (strOf ns (lit! "config")) >>= fun v => readFile ((strOf ns (lit! "input")).getD []) >>= fun t =>
        lift (openText w.look t) >>= fun x => if strOf ns (lit! "format") = some (lit! "itsdb") then w.itsdb v x ((strOf ns (lit! "output")).getD []) else do
          let cfg ← lift (w.latex v)
          exportF cfg w.depth w.look ((strOf ns (lit! "input")).getD []) ((strOf ns (lit! "output")).getD [])) := rfl
    rw [e, e1, e2, e4, bind_eq hv]
    simp only [Option.getD_some]
    rw [bind_eq hread, hx, lift_bind]
  constructor
  · intro hne cfg hc
    refine key.trans ?_
    show silent (exportC w ns fs) = _
    rw [hgo, e3, if_neg (by simpa using hne), hc, lift_bind]
  · intro heq
    refine key.trans ?_
    show silent (exportC w ns fs) = _
    rw [hgo, e3, heq, if_pos rfl]

/-! ### What happens to the files -/

/-- a document that sorting can write again (as in C109) -/
def Sortable (s : Str) : Prop := ∃ p, readText s = .ok p ∧ Layout p ∧ Every Clean p ∧ Dict.get? p.attrs (lit! "type") = none

/-- **C157**: what `xigt sort` does to a file that can be written again and sorted.  With `--in-place`, anywhere, the file has the sorted
corpus, nothing is printed and no other file changes; without, the corpus is printed, and no file changes.  The sorted corpus has the same objects in
another order. -/
theorem C157_sorted (w : World) (xs ys : List Given) (hx : Options Cmd.sortOptions xs) (hy : Options Cmd.sortOptions ys) (infile : Str)
    (hf : infile.head? ≠ some '-') (hb : saidAny [lit! "--tier-key"] (xs ++ ys) = false ∨ saidAny [lit! "--tier-deps"] (xs ++ ys) = false)
    (fs : FS) (hok : fs.OK) (path : Path) (hp : resolve fs infile = some path) (hne : path ≠ []) (s : Str) (hs : Dict.get? fs.files path = some s)
    (hc : Sortable s) (x y : Obj) (hl : loadsXml w.look s = .ok x) (hr : Srt.run w.path w.steps (sortSaid (xs ++ ys)) x = some (.ok y)) :
    ∃ t fs', (∀ look, loadsXml look t = .ok y) ∧ Srt.Reord 3 x y ∧
      xigtF w (lit! "sort" :: (xs.flatMap Given.write ++ infile :: ys.flatMap Given.write)) fs =
        some (⟨0, if saidAny [lit! "--in-place"] (xs ++ ys) then [] else t ++ ['\n']⟩, fs') ∧
      fs'.dirs = fs.dirs ∧ (∀ q, q ≠ path → Dict.get? fs'.files q = Dict.get? fs.files q) ∧
      Dict.get? fs'.files path = some (if saidAny [lit! "--in-place"] (xs ++ ys) then t else s) := by
  obtain ⟨p, c1, c2, c3, c4⟩ := hc
  obtain ⟨g1, g2⟩ := C108_partial w.path w.look w.steps (sortSaid (xs ++ ys)) (saidAny [lit! "--in-place"] (xs ++ ys)) infile fs hok path hp hne s hs
  obtain ⟨t, fs', f1, f2, f3⟩ := g2 p x y c1 c2 c3 c4 hl hr
  obtain ⟨d1, d2, d3, d4, d5⟩ := g1 _ _ f1
  obtain ⟨x', y', t', e1, e2, e3, e4, e5, e6⟩ := d5 _ rfl
  rw [hl] at e1
  cases e1
  rw [hr] at e2
  cases e2
  refine ⟨t, fs', f2, e3, ?_, d1, d3, f3⟩
  rw [C157_sort w xs ys hx hy infile hf fs, if_neg (by rcases hb with hb | hb <;> simp [hb]), f1]
  rfl

/-- **C157**: sorting in place, by keys as in C110, twice is as once -/
theorem C157_twice (w : World) (xs ys : List Given) (hx : Options Cmd.sortOptions xs) (hy : Options Cmd.sortOptions ys) (infile : Str)
    (hf : infile.head? ≠ some '-') (hin : saidAny [lit! "--in-place"] (xs ++ ys) = true) (hd : saidAny [lit! "--tier-deps"] (xs ++ ys) = false)
    (hk : ∀ k ∈ allWords [lit! "--igt-key", lit! "--tier-key", lit! "--item-key"] (xs ++ ys), Srt.OwnKey k)
    (fs : FS) (hok : fs.OK) (path : Path) (hp : resolve fs infile = some path) (hne : path ≠ []) (s : Str) (hs : Dict.get? fs.files path = some s)
    (hc : Sortable s) (fs' : FS)
    (h : xigtF w (lit! "sort" :: (xs.flatMap Given.write ++ infile :: ys.flatMap Given.write)) fs = some (⟨0, []⟩, fs')) :
    ∃ fs'', xigtF w (lit! "sort" :: (xs.flatMap Given.write ++ infile :: ys.flatMap Given.write)) fs' = some (⟨0, []⟩, fs'') ∧
      ∀ q, Dict.get? fs''.files q = Dict.get? fs'.files q := by
  obtain ⟨p, c1, c2, c3, c4⟩ := hc
  have hsub : ∀ n, n ∈ [lit! "--igt-key", lit! "--tier-key", lit! "--item-key"] → ∀ k ∈ allWords [n] (xs ++ ys), Srt.OwnKey k := by
    intro n hn k hkn
    refine hk k ?_
    unfold allWords argsOf at hkn ⊢
    rw [List.mem_flatten] at hkn ⊢
    obtain ⟨l, h1, h2⟩ := hkn
    obtain ⟨z, h3, h4⟩ := List.mem_map.1 h1
    rw [List.mem_filter] at h3
    refine ⟨l, List.mem_map.2 ⟨z, List.mem_filter.2 ⟨h3.1, ?_⟩, h4⟩, h2⟩
    have : z.1 = n := by simpa using h3.2
    rw [this]
    exact decide_eq_true hn
  have hdeps : (sortSaid (xs ++ ys)).tierDeps = [] := by
    have e : lastWord [lit! "--tier-deps"] (xs ++ ys) = none := by
      unfold lastWord
      have : argsOf [lit! "--tier-deps"] (xs ++ ys) = [] := by simpa [saidAny] using hd
      rw [this]
      rfl
    unfold sortSaid
    simp only [e]
  have hcmd : ∀ g : FS, xigtF w (lit! "sort" :: (xs.flatMap Given.write ++ infile :: ys.flatMap Given.write)) g =
      (sortF w.path w.look w.steps (sortSaid (xs ++ ys)) true infile g).map fun r => (ended r.1, r.2) := by
    intro g
    rw [C157_sort w xs ys hx hy infile hf g, if_neg (by simp [hd]), hin]
  rw [hcmd] at h
  obtain ⟨⟨r, g⟩, h1, h2⟩ := Option.map_eq_some_iff.1 h
  injection h2 with h2 h3
  subst h3
  have hr : r = .ok [] := by
    cases r with
    | ok out =>
      injection h2 with _ h2
      rw [h2]
    | error e =>
      exfalso
      obtain ⟨-, g2⟩ := C108_partial w.path w.look w.steps (sortSaid (xs ++ ys)) true infile fs hok path hp hne s hs
      have hcon : contents fs infile = some s := by rw [contents, hp]; exact hs
      cases hl : loadsXml w.look s with
      | error e' =>
        simp only [sortF, hcon, hl] at h1
        cases h1
        injection h2 with h2 _
        cases h2
      | ok x =>
        cases hr : Srt.run w.path w.steps (sortSaid (xs ++ ys)) x with
        | none =>
          simp only [sortF, hcon, hl, hr] at h1
          cases h1
        | some r =>
          cases r with
          | error e' =>
            simp only [sortF, hcon, hl, hr, Option.map_some] at h1
            cases h1
            injection h2 with h2 _
            cases h2
          | ok y =>
            obtain ⟨t, fs1, k1, -⟩ := g2 p x y c1 c2 c3 c4 hl hr
            rw [h1] at k1
            cases k1
  rw [hr] at h1
  obtain ⟨fs'', k1, k2⟩ := C108_twice w.path w.look w.look w.steps (sortSaid (xs ++ ys)) infile fs hok path hp hne s hs p c1 c2 c3 c4 (.inl hdeps)
    (hsub _ (by simp)) (hsub _ (by simp)) (hsub _ (by simp)) g h1
  exact ⟨fs'', by rw [hcmd, k1]; rfl, k2⟩

/-- **C157**: what `xigt partition` does, into a directory that there is not yet but can be made, for keys without `/` (as in C107): it makes that
directory and changes nothing outside it; the status is 0 just if partitioning succeeds, and then the directory has exactly the files of C49 -/
theorem C157_partitioned (w : World) (xs ys : List Given) (hx : Options Cmd.partitionOptions xs) (hy : Options Cmd.partitionOptions ys) (outdir : Str)
    (infiles : List Str) (hf : ∀ a ∈ outdir :: infiles, a.head? ≠ some '-') (k : Str) (hk : lastWord [lit! "--key-path"] (xs ++ ys) = some k)
    (a : PArgs) (ha : a = ⟨w.path, k, (lastWord [lit! "--default-key"] (xs ++ ys)).getD (lit! "---"), outdir, w.look⟩)
    (fs : FS) (hok : fs.OK) (dout : Path) (ho : resolve fs outdir = some dout)
    (hnd : dout ∉ fs.dirs) (hne : dout ≠ []) (hpar : dout.dropLast ∈ fs.dirs) (hnf : Dict.get? fs.files dout = none) (hp : PlainKeys a (prepared fs dout) infiles) :
    ∃ e fs', xigtF w (lit! "partition" :: (xs.flatMap Given.write ++ (outdir :: infiles ++ ys.flatMap Given.write))) fs = some (e, fs') ∧
      fs'.dirs = dout :: fs.dirs ∧ (∀ p, (∀ n, p ≠ dout ++ [n]) → Dict.get? fs'.files p = Dict.get? fs.files p) ∧
      match Part.run (a.env (asRead a (prepared fs dout))) infiles with
      | .ok out => e.status = 0 ∧ (∀ name c, Dict.get? out name = some c → ∃ t, dumpsXml (some 2) c = .ok t ∧ contents fs' name = some t) ∧
          ∀ n t, Dict.get? fs'.files (dout ++ [n]) = some t → ∃ c, Dict.get? out (Part.pathJoin outdir n) = some c ∧ dumpsXml (some 2) c = .ok t
      | .error _ => True := by
  subst ha
  obtain ⟨r, fs', h1, h2, h3, h4⟩ := C107_partial _ infiles fs hok dout ho hnd hne hpar hnf hp
  have h5 := C157_partition w xs ys hx hy outdir infiles hf k hk fs
  rw [h1] at h5
  refine ⟨_, fs', h5, h2, h3, ?_⟩
  revert h4
  cases Part.run _ infiles with
  | ok out =>
    rintro ⟨rfl, g1, g2⟩
    exact ⟨rfl, g1, g2⟩
  | error e => exact fun _ => trivial

/-- **C157**: what `xigt import` does to files: the output is the import of the input, with the options of the configuration, or empty if that fails; nothing
else changes -/
theorem C157_imported (w : World) (gs : List Given) (h : Options Cmd.formatOptions gs) (hf : Cmd.FormatsIn [lit! "toolbox", lit! "odin"] gs) (i o : Str)
    (hi : lastWord [lit! "-i", lit! "--input"] gs = some i) (ho : lastWord [lit! "-o", lit! "--output"] gs = some o) (fs : FS) (pi po : Path) (t : Str)
    (hpi : resolve fs i = some pi) (ht : Dict.get? fs.files pi = some t) (hpo : writable fs o = some po) (hne : pi ≠ po)
    (v : Opt.V) (hv : match lastWord [lit! "-c", lit! "--config"] gs with
      | none => v = .null
      | some c => ∃ u, contents fs c = some u ∧ w.json u = .ok v)
    (odin : Bool) (hodin : odin = decide ((lastWord [lit! "-f", lit! "--format"] gs).getD (lit! "toolbox") = lit! "odin"))
    (d : Dict Str Opt.V) (hd : (if odin then Opt.odinOptions v else Opt.toolboxOptions v) = .ok d)
    (hsuf : odin = true → ∃ suffix, Dict.get? d Opt.SUF = some (.str suffix)) :
    ∃ e fs', xigtF w (lit! "import" :: gs.flatMap Given.write) fs = some (e, fs') ∧ fs'.dirs = fs.dirs ∧
      (∀ p, p ≠ po → Dict.get? fs'.files p = Dict.get? fs.files p) ∧
      match (if odin then w.odin d else w.toolbox d) t with
      | .ok u => e = ⟨0, []⟩ ∧ Dict.get? fs'.files po = some u
      | .error _ => e = ⟨1, []⟩ ∧ Dict.get? fs'.files po = some [] := by
  obtain ⟨h1, h2⟩ := C157_import w gs h hf i o hi ho fs
  have hcfg : Opt.readConfig w.json (lastWord [lit! "-c", lit! "--config"] gs) fs = (.ok v, fs) := by
    cases hc : lastWord [lit! "-c", lit! "--config"] gs with
    | none =>
      rw [hc] at hv
      simp only at hv
      rw [hv]
      rfl
    | some c =>
      rw [hc] at hv
      obtain ⟨u, h3, h4⟩ := hv
      have h5 : readFile c fs = (.ok u, fs) := by simp [readFile, h3]
      show (readFile c >>= fun t => lift (w.json t)) fs = _
      rw [bind_eq h5, h4]
      rfl
  cases odin with
  | true =>
    simp only [if_true] at hd ⊢
    obtain ⟨suffix, hsuf⟩ := hsuf rfl
    rw [h2 (of_decide_eq_true hodin.symm) v d suffix hcfg hd hsuf]
    obtain ⟨r, fs', g1, g2, g3, g4⟩ := C106_file (w.odin d) suffix i o fs pi po t hpi ht hpo hne
    rw [g1]
    refine ⟨_, fs', rfl, g2, g3, ?_⟩
    revert g4
    cases w.odin d t with
    | ok u => rintro ⟨rfl, g4⟩; exact ⟨rfl, g4⟩
    | error e => rintro ⟨rfl, g4⟩; exact ⟨rfl, g4⟩
  | false =>
    simp only [Bool.false_eq_true, if_false] at hd ⊢
    rw [h1 (of_decide_eq_false hodin.symm), Opt.C141_run w.json w.toolbox _ i o fs v d hv hd]
    have hc : contents fs i = some t := by rw [contents, hpi]; exact ht
    have hne' : ¬ some pi = some po := fun e => hne (Option.some.inj e)
    rw [importFile_eq, hc, hpo, hpi]
    simp only [if_neg hne']
    cases w.toolbox d t with
    | ok u => exact ⟨_, _, rfl, rfl, fun p hp => (by rw [get_put, if_neg (fun e => hp e.symm)]), rfl, by rw [get_put, if_pos rfl]⟩
    | error e => exact ⟨_, _, rfl, rfl, fun p hp => (by rw [get_put, if_neg (fun e => hp e.symm)]), rfl, by rw [get_put, if_pos rfl]⟩

/-- **C157**: what `xigt export` writes with LaTeX: the document with a block for each IGT of the input (C112), and it changes nothing else -/
theorem C157_exported (w : World) (gs : List Given) (h : Options Cmd.formatOptions gs) (hf : ∀ x ∈ allWords [lit! "-f", lit! "--format"] gs, x = lit! "latex") (i o : Str)
    (hi : lastWord [lit! "-i", lit! "--input"] gs = some i) (ho : lastWord [lit! "-o", lit! "--output"] gs = some o) (fs : FS) (v : Option Opt.V)
    (hv : exportConfig w (lastWord [lit! "-c", lit! "--config"] gs) fs = (.ok v, fs)) (cfg : Ltx.Cfg) (hc : w.latex v = .ok cfg) {p : Path} {t s : Str} {x : Obj}
    (hin : contents fs i = some t) (hx : loadsXml w.look t = .ok x) (hw : writable fs o = some p) (hne : resolve fs i ≠ some p)
    (hs : Ltx.exportDoc cfg w.depth x.kids = .ok s) :
    ∃ fs', xigtF w (lit! "export" :: gs.flatMap Given.write) fs = some (⟨0, []⟩, fs') ∧ contents fs' i = some t ∧
      (∀ q, q ≠ p → Dict.get? fs'.files q = Dict.get? fs.files q) ∧ Dict.get? fs'.files p = some s := by
  obtain ⟨fs', g1, g2, g3, g4, -⟩ := C112_document cfg w.depth w.look i o fs hin hx hw hne hs
  refine ⟨fs', ?_, g2, g3, g4⟩
  have hfi : Cmd.FormatsIn [lit! "latex", lit! "itsdb"] gs := by
    intro x hx v hv
    rw [hf v (List.mem_flatten.2 ⟨x, hx, hv⟩)]
    simp
  have hl : (lastWord [lit! "-f", lit! "--format"] gs).getD (lit! "latex") ≠ lit! "itsdb" := by
    cases hw : lastWord [lit! "-f", lit! "--format"] gs with
    | none => decide
    | some y =>
      unfold lastWord at hw
      obtain ⟨l, h1, h2⟩ := Option.bind_eq_some_iff.1 hw
      rw [Option.getD_some, hf y (List.mem_flatten.2 ⟨l, List.mem_of_getLast? h1, List.mem_of_head? h2⟩)]
      decide
  have hopen : ∃ y, openText w.look t = .ok y := by
    simp only [loadsXml, loadXml, bind, Except.bind] at hx
    split at hx
    · cases hx
    rename_i e he
    split at hx
    · cases hx
    rename_i o ho
    exact ⟨o, by simp only [openText, he, bind, Except.bind, ho]⟩
  obtain ⟨y, hy⟩ := hopen
  rw [(C157_export w gs h hfi i o hi ho fs v t y hv hin hy).1 hl cfg hc, g1]
  rfl

end

section
attribute [local instance] asciiUni asciiXml

/-- `--in-place --igt-key=@id` before the file, `--item-key @id -vv` after it -/
def exBefore : List Given := [⟨lit! "--in-place", [], .apart⟩, ⟨lit! "--igt-key", [lit! "@id"], .eq⟩]
def exAfter : List Given := [⟨lit! "--item-key", [lit! "@id"], .apart⟩, ⟨lit! "-v", [], .more 1⟩]

theorem exOptions : Options Cmd.sortOptions exBefore ∧ Options Cmd.sortOptions exAfter := by
  constructor
  all_goals
    intro g hg
    simp only [exBefore, exAfter, List.mem_cons, List.not_mem_nil, or_false] at hg
    rcases hg with rfl | rfl
    all_goals exact ⟨by decide, by simp [Given.Well]⟩

example : lit! "sort" :: (exBefore.flatMap Given.write ++ lit! "in.xml" :: exAfter.flatMap Given.write) =
    [lit! "sort", lit! "--in-place", lit! "--igt-key=@id", lit! "in.xml", lit! "--item-key", lit! "@id", lit! "-vv"] := by decide

example : sortSaid (exBefore ++ exAfter) = { igtKey := [lit! "@id"], itemKey := [lit! "@id"] } ∧ saidAny [lit! "--in-place"] (exBefore ++ exAfter) = true := ⟨rfl, rfl⟩

/-- the conditions of `C157_sorted` are met, and the file is sorted -/
example : ∃ t fs', (∃ y, ∀ look, loadsXml look t = .ok y) ∧
    xigtF exWorld [lit! "sort", lit! "--in-place", lit! "--igt-key=@id", lit! "in.xml", lit! "--item-key", lit! "@id", lit! "-vv"] (oneFile unsorted) = some (⟨0, []⟩, fs') ∧
    Dict.get? fs'.files [lit! "in.xml"] = some t ∧
    t = lit! "<xigt-corpus>\n  <igt id=\"i1\">\n    <metadata>\n      <meta>m</meta>\n    </metadata>\n  </igt>\n  <igt id=\"i2\" />\n</xigt-corpus>\n" := by
  obtain ⟨p, h1, h2⟩ := ok_of_B (r := readText unsorted) (f := fun p => layoutB 0 p && everyB cleanB p && (Dict.get? p.attrs (lit! "type")).isNone) (by decide +kernel)
  obtain ⟨x, g1, g2⟩ := ok_of_B (r := loadsXml id unsorted) (f := fun x => (Srt.run exWorld.path 10 (sortSaid (exBefore ++ exAfter)) x).any fun r => okWith r fun _ => true) (by decide +kernel)
  simp only [Bool.and_eq_true, Option.isNone_iff_eq_none, Option.any_eq_true] at h2 g2
  obtain ⟨r, g2, g3⟩ := g2
  obtain ⟨y, rfl, _⟩ := ok_of_B g3
  obtain ⟨t, fs', k1, k2, k3, k4, k5, k6⟩ := C157_sorted exWorld exBefore exAfter exOptions.1 exOptions.2 (lit! "in.xml") (by decide) (.inl rfl) (oneFile unsorted) (oneFile_ok _)
    [lit! "in.xml"] (by decide) (by decide) unsorted rfl ⟨p, h1, layout_of_B h2.1.1, clean_of_B h2.1.2, h2.2⟩ x y g1 g2
  refine ⟨t, fs', ⟨y, k1⟩, k3, k6, ?_⟩
  have h : (xigtF exWorld [lit! "sort", lit! "--in-place", lit! "--igt-key=@id", lit! "in.xml", lit! "--item-key", lit! "@id", lit! "-vv"] (oneFile unsorted)).map (fun r => Dict.get? r.2.files [lit! "in.xml"]) =
      some (some (lit! "<xigt-corpus>\n  <igt id=\"i1\">\n    <metadata>\n      <meta>m</meta>\n    </metadata>\n  </igt>\n  <igt id=\"i2\" />\n</xigt-corpus>\n")) := by
    decide +kernel
  have h' := h
  rw [show xigtF exWorld [lit! "sort", lit! "--in-place", lit! "--igt-key=@id", lit! "in.xml", lit! "--item-key", lit! "@id", lit! "-vv"] (oneFile unsorted) = _ from k3] at h'
  simp only [Option.map_some, Option.some.injEq] at h'
  rw [k6] at h'
  exact Option.some.inj h'

/-- keys and an order of tiers -/
example : xigtF exWorld [lit! "sort", lit! "--tier-key=@id", lit! "in.xml", lit! "--tier-deps=a"] (oneFile unsorted) = some (⟨2, []⟩, oneFile unsorted) := by
  refine (C157_sort exWorld [⟨lit! "--tier-key", [lit! "@id"], .eq⟩] [⟨lit! "--tier-deps", [lit! "a"], .eq⟩] ?_ ?_ (lit! "in.xml") (by decide) _).trans (if_pos ⟨rfl, rfl⟩)
  all_goals
    intro g hg
    simp only [List.mem_cons, List.not_mem_nil, or_false] at hg
    subst hg
    exact ⟨by decide, by simp [Given.Well]⟩

/-- import: of two outputs the last one counts -/
example : (xigtF exWorld [lit! "import", lit! "-ofirst", lit! "-i", lit! "in.xml", lit! "--output=second", lit! "-fodin"] (oneFile (lit! "a"))).map (fun r => (r.1, r.2.files)) =
    some (⟨0, []⟩, [([lit! "in.xml"], lit! "a"), ([lit! "second"], lit! "a!")]) := by decide +kernel

def exImport : List Given := [⟨lit! "-o", [lit! "first"], .glued⟩, ⟨lit! "-i", [lit! "in.xml"], .apart⟩, ⟨lit! "--output", [lit! "second"], .eq⟩, ⟨lit! "-f", [lit! "odin"], .glued⟩]

/-- the conditions of `C157_imported` are met -/
example : ∃ e fs', xigtF exWorld (lit! "import" :: exImport.flatMap Given.write) (oneFile (lit! "a")) = some (e, fs') ∧ e = ⟨0, []⟩ ∧
    Dict.get? fs'.files [lit! "second"] = some (lit! "a!") := by
  obtain ⟨e, fs', h1, -, -, h2⟩ := C157_imported exWorld exImport (by
      intro g hg
      simp only [exImport, List.mem_cons, List.not_mem_nil, or_false] at hg
      rcases hg with rfl | rfl | rfl | rfl
      all_goals exact ⟨by decide, by simp [Given.Well]⟩) (by
      intro x hx
      have : x = [lit! "odin"] := by simpa [argsOf, said1, exImport, Given.times] using hx
      subst this
      decide) (lit! "in.xml") (lit! "second") rfl rfl (oneFile (lit! "a")) [lit! "in.xml"] [lit! "second"] (lit! "a") (by decide) rfl (by decide) (by decide) .null rfl true rfl
      _ rfl (fun _ => ⟨lit! ".txt", rfl⟩)
  exact ⟨e, fs', h1, h2.1, h2.2⟩

/-- a query: the questions in order -/
example : (xigtF exWorld [lit! "query", lit! "-c", lit! "igt", lit! "in.xml", lit! "--count=igt/metadata"] (oneFile unsorted)).map (fun r => (r.1, r.2.files)) =
    some (⟨0, lit! "in.xml:\n 2\tigt\t\n 1\tigt/metadata\t\n\n"⟩, [([lit! "in.xml"], unsorted)]) := by
  decide +kernel

/-- the keys of `C157_twice` -/
example : ∀ k ∈ allWords [lit! "--igt-key", lit! "--tier-key", lit! "--item-key"] (exBefore ++ exAfter), Srt.OwnKey k := by
  intro k hk
  have h : allWords [lit! "--igt-key", lit! "--tier-key", lit! "--item-key"] (exBefore ++ exAfter) = [lit! "@id", lit! "@id"] := by decide
  rw [h] at hk
  have : k = lit! "@id" := by simpa using hk
  subst this
  exact .inr ⟨0, lit! "id", .inl (Srt.id_plain), rfl⟩

def exKeys : List Given := [⟨lit! "--key-path", [lit! "@doc"], .eq⟩]

theorem exKeys_options : Options Cmd.partitionOptions exKeys := by
  intro g hg
  simp only [exKeys, List.mem_cons, List.not_mem_nil, or_false] at hg
  subst hg
  exact ⟨by decide, by simp [Given.Well]⟩

/-- the conditions of `C157_partitioned` are met -/
example : ∃ e fs', xigtF exWorld [lit! "partition", lit! "--key-path=@doc", lit! "out", lit! "in.xml"] (twoDocs (lit! "a") (lit! "b")) = some (e, fs') ∧
    fs'.dirs = [[lit! "out"], []] := by
  obtain ⟨e, fs', h1, h2, -⟩ := C157_partitioned exWorld exKeys [] exKeys_options (by simp [Options]) (lit! "out") [lit! "in.xml"] (by decide) (lit! "@doc") rfl byDoc rfl
    (twoDocs (lit! "a") (lit! "b")) (twoDocs_ok _ _) [lit! "out"] (by decide) (by decide) (by decide) (by decide) (by decide) twoDocs_keys
  exact ⟨e, fs', h1, h2⟩

/-- the conditions of `C157_exported` are met -/
example : ∃ fs' s, xigtF exWorld [lit! "export", lit! "-iin.xml", lit! "-o", lit! "out.tex"] (oneFile exportable) = some (⟨0, []⟩, fs') ∧
    Dict.get? fs'.files [lit! "out.tex"] = some s := by
  obtain ⟨x, h1, h2⟩ := ok_of_B (r := loadsXml id exportable) (f := fun x => okWith (Ltx.exportDoc plainCfg 10 x.kids) (fun _ => true)) (by decide +kernel)
  obtain ⟨s, h3, _⟩ := ok_of_B h2
  obtain ⟨fs', k1, -, -, k2⟩ := C157_exported exWorld [⟨lit! "-i", [lit! "in.xml"], .glued⟩, ⟨lit! "-o", [lit! "out.tex"], .apart⟩] (by
      intro g hg
      simp only [List.mem_cons, List.not_mem_nil, or_false] at hg
      rcases hg with rfl | rfl
      all_goals exact ⟨by decide, by simp [Given.Well]⟩) (by decide) (lit! "in.xml") (lit! "out.tex") rfl rfl (oneFile exportable) none rfl plainCfg rfl
      (p := [lit! "out.tex"]) rfl h1 (by decide +kernel) (by decide +kernel) h3
  exact ⟨fs', s, k1, k2⟩

end
end Xigt.Files
