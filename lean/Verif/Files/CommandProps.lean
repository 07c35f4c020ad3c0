import Verif.Files.Command
/-
C156: what `xigt` may change.
-/

set_option linter.unusedSectionVars false

namespace Xigt.Cmd

/-- a string that a script receives and that is no default is an argument, or the end of one -/
theorem C155_word [Uni] (P : Parser) (hP : P.Tidy) (hc : ∀ a ∈ P.actions, ∀ c, a.kind = .const c → c.strings = []) (argv : List Str) (ns : Dict Str Val)
    (h : parseArgs P argv = .ok ns) (d s : Str) (hs : Dict.get? ns d = some (.str s)) (hd : ∀ v, Dict.get? P.defaults d = some v → s ∉ v.strings) :
    ∃ w ∈ argv, s <:+ w := by
  rcases C155_origin P hP argv ns h d _ hs with h | ⟨-, h⟩
  · exact absurd (.head _) (hd _ h)
  · rcases h s (.head _) with ⟨v, h1, h2⟩ | ⟨a, ha, ht, args, hs, hf⟩ | ⟨a, ha, c, hk, hf⟩
    · exact absurd h2 (hd v h1)
    · cases hs with
      | place _ h => exact ⟨s, h s hf, List.suffix_rfl⟩
      | long _ _ _ _ _ _ _ h => exact ⟨s, h s hf, List.suffix_rfl⟩
      | longEq o p v _ hw _ _ _ he =>
        subst he
        cases List.mem_singleton.1 hf
        exact ⟨_, hw, ⟨p ++ ['='], by simp⟩⟩
      | letter _ _ _ _ _ _ _ h => exact ⟨s, h s hf, List.suffix_rfl⟩
      | letterArg c r v _ hw _ _ _ he hv =>
        subst he
        cases List.mem_singleton.1 hf
        exact ⟨_, hw, hv.trans (List.suffix_cons _ _)⟩
    · rw [hc a ha c hk] at hf; cases hf

end Xigt.Cmd

namespace Xigt.Files

open Cmd (OutputSaid)

/-! ### The spec -/

/-- the command on a command line -/
def Says (argv : List Str) (c : Str) : Prop := ∃ rest, argv = c :: rest ∨ argv = lit! "--" :: c :: rest

/-- what may change by a command line: for `sort`, a file that is an argument, if an argument from `--in` to `--in-place` is there; for `import` and `export`, the output; for `import` from ODIN,
also files in a directory that is the output, and for `export` to itsdb, also what is below it; for `partition`, a directory that is an argument and not there yet, and files in it; by other commands nothing -/
inductive MayChange (argv : List Str) (fs : FS) (p : Path) : Prop
  | sort (f : Str) : Says argv (lit! "sort") → f ∈ argv → (∃ w ∈ argv, lit! "--in" <+: w ∧ w <+: lit! "--in-place") → resolve fs f = some p →
      Dict.get? fs.files p ≠ none → MayChange argv fs p
  | imported (o : Str) : Says argv (lit! "import") → OutputSaid argv o → resolve fs o = some p → MayChange argv fs p
  | importedIn (o : Str) (d : Path) (n : Str) : Says argv (lit! "import") → OutputSaid argv o → (∃ w ∈ argv, lit! "odin" <:+ w) → resolve fs o = some d →
      p = d ++ [n] → MayChange argv fs p
  | exported (o : Str) : Says argv (lit! "export") → OutputSaid argv o → resolve fs o = some p → MayChange argv fs p
  | exportedTo (o : Str) (d : Path) : Says argv (lit! "export") → OutputSaid argv o → (∃ w ∈ argv, lit! "itsdb" <:+ w) → resolve fs o = some d → d <+: p →
      MayChange argv fs p
  | made (o : Str) : Says argv (lit! "partition") → o ∈ argv → resolve fs o = some p → p ∉ fs.dirs → Dict.get? fs.files p = none → MayChange argv fs p
  | partitioned (o : Str) (d : Path) (n : Str) : Says argv (lit! "partition") → o ∈ argv → resolve fs o = some d → d ∉ fs.dirs → Dict.get? fs.files d = none →
      p = d ++ [n] → MayChange argv fs p

/-- nothing else changes -/
def Only (P : Path → Prop) (fs fs' : FS) : Prop :=
  ∀ p, ¬ P p → Dict.get? fs'.files p = Dict.get? fs.files p ∧ (p ∈ fs'.dirs ↔ p ∈ fs.dirs)

/-! ### Files that are written -/

/-- only files change, and only some -/
structure OnlyFiles (P : Path → Prop) (fs fs' : FS) : Prop where
  dirs : fs'.dirs = fs.dirs
  cwd : fs'.cwd = fs.cwd
  files : ∀ p, ¬ P p → Dict.get? fs'.files p = Dict.get? fs.files p

theorem OnlyFiles.refl {P : Path → Prop} (fs : FS) : OnlyFiles P fs fs := ⟨rfl, rfl, fun _ _ => rfl⟩

theorem OnlyFiles.trans {P : Path → Prop} {a b c : FS} (h : OnlyFiles P a b) (k : OnlyFiles P b c) : OnlyFiles P a c :=
  ⟨k.dirs.trans h.dirs, k.cwd.trans h.cwd, fun p hp => (k.files p hp).trans (h.files p hp)⟩

theorem OnlyFiles.only {P Q : Path → Prop} {a b : FS} (h : OnlyFiles P a b) (hq : ∀ p, P p → Q p) : Only Q a b :=
  fun p hp => ⟨h.files p fun k => hp (hq p k), by rw [h.dirs]⟩

theorem Only.refl {P : Path → Prop} (fs : FS) : Only P fs fs := fun _ _ => ⟨rfl, Iff.rfl⟩

theorem OnlyFiles.bind {α β : Type} {P : Path → Prop} {m : Act α} {f : α → Act β} {fs : FS} (hm : OnlyFiles P fs (m fs).2)
    (hf : ∀ a fs', m fs = (.ok a, fs') → OnlyFiles P fs' (f a fs').2) : OnlyFiles P fs ((m >>= f) fs).2 := by
  show OnlyFiles P fs (match m fs with
    | (.ok a, fs') => f a fs'
    | (.error e, fs') => (.error e, fs')).2
  split
  · rename_i a fs' h
    rw [h] at hm
    exact hm.trans (hf a fs' h)
  · rename_i e fs' h
    rw [h] at hm
    exact hm

theorem same_read (s : Str) (fs : FS) : (readFile s fs).2 = fs := by
  unfold readFile
  split <;> rfl

theorem same_lift {α : Type} (m : Py α) (fs : FS) : (lift m fs).2 = fs := by
  cases m <;> rfl

theorem only_read {P : Path → Prop} (s : Str) (fs : FS) : OnlyFiles P fs (readFile s fs).2 := by rw [same_read]; exact .refl fs
theorem only_lift {P : Path → Prop} {α : Type} (m : Py α) (fs : FS) : OnlyFiles P fs (lift m fs).2 := by rw [same_lift]; exact .refl fs

theorem read_fs {s : Str} {fs fs' : FS} {r} (h : readFile s fs = (r, fs')) : fs' = fs := by
  have := same_read s fs
  rw [h] at this
  exact this

theorem lift_fs {α : Type} {m : Py α} {fs fs' : FS} {r} (h : lift m fs = (r, fs')) : fs' = fs := by
  have := same_lift m fs
  rw [h] at this
  exact this

theorem writable_resolve {fs : FS} {s : Str} {p : Path} (h : writable fs s = some p) : resolve fs s = some p := by
  unfold writable at h
  obtain ⟨q, hq, h⟩ := Option.bind_eq_some_iff.1 h
  split at h
  · cases h; exact hq
  · cases h

theorem only_openW {P : Path → Prop} (s : Str) (fs : FS) (hP : ∀ p, resolve fs s = some p → P p) :
    OnlyFiles P fs (openW s fs).2 ∧ ∀ p fs', openW s fs = (.ok p, fs') → P p ∧ fs'.dirs = fs.dirs ∧ fs'.cwd = fs.cwd := by
  unfold openW
  cases h : writable fs s with
  | none => exact ⟨.refl fs, by intro p fs' h; cases h⟩
  | some p =>
    have hp := hP p (writable_resolve h)
    refine ⟨⟨rfl, rfl, fun q hq => ?_⟩, fun q fs' h => ?_⟩
    · rw [Dict.get?_set, if_neg fun e => hq (by rw [← e]; exact hp)]
    · cases h; exact ⟨hp, rfl, rfl⟩

theorem only_put {P : Path → Prop} (p : Path) (t : Str) (fs : FS) (hp : P p) : OnlyFiles P fs (put p t fs).2 :=
  ⟨rfl, rfl, fun q hq => by
    show Dict.get? (Dict.set _ _ _) q = _
    rw [Dict.get?_set, if_neg fun e => hq (by rw [← e]; exact hp)]⟩

theorem only_importFile {P : Path → Prop} (imp : Str → Py Str) (i o : Str) (fs : FS) (hP : ∀ p, resolve fs o = some p → P p) : OnlyFiles P fs (importFile imp i o fs).2 := by
  unfold importFile
  refine .bind (only_read i fs) fun _ fs1 h1 => ?_
  cases read_fs h1
  obtain ⟨h2, h3⟩ := only_openW (P := P) o fs hP
  refine .bind h2 fun p fs2 h4 => ?_
  refine .bind (only_read i fs2) fun _ fs3 h5 => ?_
  cases read_fs h5
  refine .bind (only_lift _ fs2) fun r fs4 h6 => ?_
  cases lift_fs h6
  exact only_put p r fs2 (h3 p fs2 h4).1

/-! ### Names -/

theorem splitSlash_slash (s : Str) : ∀ c ∈ splitSlash s, '/' ∉ c := by
  induction s with
  | nil => intro c hc; simp [splitSlash] at hc; subst hc; simp
  | cons a s ih =>
    intro c hc
    unfold splitSlash at hc
    split at hc
    · rcases List.mem_cons.1 hc with rfl | hc
      · simp
      · exact ih c hc
    · rename_i ha
      split at hc
      · cases List.mem_singleton.1 hc
        simpa using Ne.symm ha
      · rename_i w ws hw
        rcases List.mem_cons.1 hc with rfl | hc
        · simp only [List.mem_cons, not_or]
          exact ⟨Ne.symm ha, ih w (by rw [hw]; exact .head _)⟩
        · exact ih c (by rw [hw]; exact .tail _ hc)

theorem steps_names {fs : FS} (hok : fs.OK) : ∀ (ws : List Str) (p : Option Path) (q : Path), (∀ c ∈ ws, '/' ∉ c) → ws.foldl (step fs) p = some q →
    (ws = [] ∧ p = some q) ∨ ∀ c ∈ q, Name c := by
  intro ws
  induction ws with
  | nil => intro p q _ h; exact .inl ⟨rfl, h⟩
  | cons w ws ih =>
    intro p q hw h
    rw [List.foldl_cons] at h
    rcases ih _ q (fun c hc => hw c (.tail _ hc)) h with ⟨-, h1⟩ | h1
    · right
      unfold step at h1
      obtain ⟨d, -, h1⟩ := Option.bind_eq_some_iff.1 h1
      split at h1
      · rename_i hd
        have hn := hok.names d (.inr hd)
        cases h1
        split
        · exact hn
        · rename_i h2
          split
          · exact fun c hc => hn c (List.dropLast_subset _ hc)
          · rename_i h3
            intro c hc
            rcases List.mem_append.1 hc with hc | hc
            · exact hn c hc
            · cases List.mem_singleton.1 hc
              exact ⟨hw _ (.head _), fun e => h2 (.inl e), fun e => h2 (.inr e), h3⟩
      · cases h1
    · exact .inr h1

/-- what strings denote has names, if everything has -/
theorem resolve_names {fs : FS} (hok : fs.OK) {s : Str} {p : Path} (h : resolve fs s = some p) : ∀ c ∈ p, Name c := by
  unfold resolve at h
  split at h
  · cases h
  · have key : ∀ q, (splitSlash s).foldl (step fs) (some q) = some p → ∀ c ∈ p, Name c := by
      intro q h
      rcases steps_names hok _ _ _ (splitSlash_slash s) h with ⟨h1, -⟩ | h1
      · exact absurd h1 (splitSlash_ne s)
      · exact h1
    split at h
    · exact key _ h
    · exact key _ h

/-! ### The importers -/

theorem only_importAll {P : Path → Prop} (imp : Str → Py Str) (suffix i o : Str) (d : Path) (hP : ∀ n, P (d ++ [n])) : ∀ (ns : List Str) (fs : FS), (∀ n ∈ ns, Name (subSuffix suffix n)) →
    resolve fs o = some d → d ∈ fs.dirs → OnlyFiles P fs (importAll imp suffix i o ns fs).2
  | [], fs, _, _, _ => .refl fs
  | n :: ns, fs, hn, ho, hd => by
    unfold importAll
    have h1 := only_importFile (P := P) imp (Part.pathJoin i n) (Part.pathJoin o (subSuffix suffix n)) fs (by
      intro p hp
      rw [resolve_join ho hd (hn n (.head _))] at hp
      cases hp
      exact hP _)
    refine .bind h1 fun _ fs' h => ?_
    rw [h] at h1
    refine only_importAll imp suffix i o d hP ns fs' (fun m hm => hn m (.tail _ hm)) ?_ (by rw [h1.dirs]; exact hd)
    exact resolve_mono (fun x hx => by rw [h1.dirs]; exact hx) h1.cwd ho

theorem mkdir_cases (s : Str) (fs : FS) : (∃ e, mkdir s fs = (.error e, fs)) ∨
    ∃ p, writable fs s = some p ∧ Dict.get? fs.files p = none ∧ mkdir s fs = (.ok (), { fs with dirs := p :: fs.dirs }) := by
  unfold mkdir
  cases h : writable fs s with
  | none => exact .inl ⟨_, rfl⟩
  | some p =>
    by_cases hf : Dict.has fs.files p = true
    · exact .inl ⟨.os, by simp [hf]⟩
    · exact .inr ⟨p, rfl, (Dict.has_false_iff _ _).1 (by simpa using hf), by simp [hf]⟩

theorem prepareOutdir_cases (s : Str) (fs : FS) : (∃ e, prepareOutdir s fs = (.error e, fs)) ∨
    ∃ p, writable fs s = some p ∧ Dict.get? fs.files p = none ∧ prepareOutdir s fs = (.ok (), { fs with dirs := p :: fs.dirs }) := by
  unfold prepareOutdir
  rcases mkdir_cases s fs with ⟨e, h⟩ | ⟨p, h1, h2, h3⟩
  · exact .inl ⟨_, by rw [h]⟩
  · exact .inr ⟨p, h1, h2, by rw [h3]⟩

theorem bind_eq {α β : Type} {m : Act α} {f : α → Act β} {fs fs' : FS} {a : α} (h : m fs = (.ok a, fs')) : (m >>= f) fs = f a fs' := by
  show (match m fs with
    | (.ok a, fs') => f a fs'
    | (.error e, fs') => (.error e, fs')) = _
  rw [h]

theorem bind_err {α β : Type} {m : Act α} {f : α → Act β} {fs fs' : FS} {e : FErr} (h : m fs = (.error e, fs')) : (m >>= f) fs = (.error e, fs') := by
  show (match m fs with
    | (.ok a, fs') => f a fs'
    | (.error e, fs') => (.error e, fs')) = _
  rw [h]

theorem lift_bind {α β : Type} {a : α} {f : α → Act β} {fs : FS} : (lift (.ok a) >>= f) fs = f a fs := rfl

/-- a new directory in a file system as there can be -/
theorem ok_dir {fs : FS} (hok : fs.OK) {s : Str} {p : Path} (hw : writable fs s = some p) (hf : Dict.get? fs.files p = none) : FS.OK { fs with dirs := p :: fs.dirs } := by
  have hr := writable_resolve hw
  have hn := resolve_names hok hr
  have hpar : p ≠ [] ∧ p.dropLast ∈ fs.dirs := by
    unfold writable at hw
    rw [hr, Option.bind_some] at hw
    split at hw
    · rename_i h; exact h.2
    · cases hw
  refine ⟨?_, ?_, ?_⟩
  · intro q hq
    rcases hq with hq | hq
    · exact hok.names q (.inl hq)
    · rcases List.mem_cons.1 hq with rfl | hq
      · exact hn
      · exact hok.names q (.inr hq)
  · intro q hq
    rcases List.mem_cons.1 hq with rfl | hq
    · exact hf
    · exact hok.excl q hq
  · intro q n hq
    rcases hq with hq | hq
    · exact .tail _ (hok.closed q n (.inl hq))
    · rcases List.mem_cons.1 hq with hq | hq
      · have := hpar.2
        rw [← hq, List.dropLast_concat] at this
        exact .tail _ this
      · exact .tail _ (hok.closed q n (.inr hq))

theorem only_dir {P : Path → Prop} {fs fs' : FS} {p : Path} (hp : P p) (h : OnlyFiles P { fs with dirs := p :: fs.dirs } fs') : Only P fs fs' := by
  intro q hq
  refine ⟨h.files q hq, ?_⟩
  rw [h.dirs]
  simp only [List.mem_cons]
  exact ⟨fun k => k.resolve_left fun e => hq (by rw [e]; exact hp), .inr⟩

theorem globNames_name {fs : FS} (hok : fs.OK) {i suffix n : Str} (hs : PlainSuffix suffix) (h : n ∈ globNames fs i suffix) : Name (subSuffix suffix n) := by
  unfold globNames at h
  split at h
  · rename_i d hd
    split at h
    · obtain ⟨h1, h2⟩ := List.mem_filter.1 h
      have hn : Name n := hok.names _ (mem_names.1 h1) n (by simp)
      simp only [Bool.and_eq_true, decide_eq_true_eq] at h2
      obtain ⟨stem, rfl⟩ := h2.1
      rw [subSuffix_eq hs]
      have : '/' ∉ stem := fun h => hn.slash (List.mem_append_left _ h)
      refine ⟨?_, by simp, ?_, ?_⟩
      · simp only [List.mem_append, not_or]
        exact ⟨this, by decide⟩
      · intro e
        have := congrArg List.length e
        simp at this
      · intro e
        have := congrArg List.length e
        simp at this
    · cases h
  · cases h

theorem only_odin {P : Path → Prop} (imp : Str → Py Str) (suffix i o : Str) (hs : PlainSuffix suffix) (fs : FS) (hok : fs.OK) (hP : ∀ d, resolve fs o = some d → P d ∧ ∀ n, P (d ++ [n])) :
    Only P fs (odinImport imp suffix i o fs).2 := by
  unfold odinImport
  split
  · exact (only_importFile imp i o fs fun p hp => (hP p hp).1).only fun _ h => h
  · split
    · rename_i hd
      let g : Unit → Act Unit := fun _ fs' => importAll imp suffix i o (globNames fs' i suffix) fs'
      show Only P fs ((if exists? fs o = true then g () else prepareOutdir o >>= g) fs).2
      by_cases he : exists? fs o = true
      · rw [if_pos he]
        have hdir : isDir fs o = true := by
          unfold exists? at he
          simp only [Bool.and_eq_true, Bool.not_eq_true'] at hd
          simpa [hd.2] using he
        unfold isDir at hdir
        cases hr : resolve fs o with
        | none => rw [hr] at hdir; cases hdir
        | some d =>
          rw [hr] at hdir
          exact (only_importAll imp suffix i o d (hP d hr).2 _ fs (fun n hn => globNames_name hok hs hn) hr (by simpa using hdir)).only fun _ h => h
      · rw [if_neg he]
        rcases prepareOutdir_cases o fs with ⟨e, h⟩ | ⟨p, h1, h2, h3⟩
        · rw [bind_err h]; exact .refl fs
        · rw [bind_eq h3]
          have hr := writable_resolve h1
          have hr' : resolve { fs with dirs := p :: fs.dirs } o = some p := resolve_mono (fs := fs) (fs' := { fs with dirs := p :: fs.dirs }) (fun x hx => List.mem_cons_of_mem _ hx) rfl hr
          exact only_dir (hP p hr).1 (only_importAll imp suffix i o p (hP p hr).2 _ _ (fun n hn => globNames_name (ok_dir hok h1 h2) hs hn) hr' (.head _))
    · exact .refl fs

theorem only_odinNoSuffix {P : Path → Prop} (imp : Str → Py Str) (i o : Str) (fs : FS) (hP : ∀ d, resolve fs o = some d → P d) : Only P fs (odinNoSuffix imp i o fs).2 := by
  unfold odinNoSuffix
  split
  · exact (only_importFile imp i o fs hP).only fun _ h => h
  · split
    · let g : Unit → Act Unit := fun _ => fail (.py .typeError)
      show Only P fs ((if exists? fs o = true then g () else prepareOutdir o >>= g) fs).2
      by_cases he : exists? fs o = true
      · rw [if_pos he]; exact .refl fs
      · rw [if_neg he]
        rcases prepareOutdir_cases o fs with ⟨e, h⟩ | ⟨p, h1, h2, h3⟩
        · rw [bind_err h]; exact .refl fs
        · rw [bind_eq h3]
          exact only_dir (hP p (writable_resolve h1)) (.refl _)
    · exact .refl fs

section
variable [Uni] [XmlLex]

theorem only_exportAll {P : Path → Prop} (cfg : Ltx.Cfg) (fuel : Nat) (p : Path) (hp : P p) : ∀ (xs : List (Py Obj)) (fs : FS), OnlyFiles P fs (exportAll cfg fuel p xs fs).2
  | [], fs => .refl fs
  | x :: xs, fs => by
    unfold exportAll
    refine .bind (only_lift _ fs) fun _ fs1 h1 => ?_
    cases lift_fs h1
    refine .bind (only_lift _ fs) fun _ fs2 h2 => ?_
    cases lift_fs h2
    refine .bind (only_put p _ fs hp) fun _ fs3 h3 => ?_
    refine .bind (only_put p _ fs3 hp) fun _ fs4 h4 => ?_
    exact only_exportAll cfg fuel p hp xs fs4

theorem only_exportF {P : Path → Prop} (cfg : Ltx.Cfg) (fuel : Nat) (look : Nat → Nat) (i o : Str) (fs : FS) (hP : ∀ p, resolve fs o = some p → P p) :
    OnlyFiles P fs (exportF cfg fuel look i o fs).2 := by
  unfold exportF
  refine .bind (only_read i fs) fun t fs1 h1 => ?_
  cases read_fs h1
  refine .bind (only_lift _ fs) fun x fs2 h2 => ?_
  cases lift_fs h2
  obtain ⟨h3, h4⟩ := only_openW (P := P) o fs hP
  refine .bind h3 fun p fs3 h5 => ?_
  have hp := (h4 p fs3 h5).1
  refine .bind (only_put p _ fs3 hp) fun _ fs4 _ => ?_
  refine .bind (only_exportAll cfg fuel p hp _ fs4) fun _ fs5 _ => ?_
  exact only_put p _ fs5 hp

theorem only_dumpF {P : Path → Prop} (name : Str) (x : Obj) (fs : FS) (hP : ∀ p, resolve fs name = some p → P p) : OnlyFiles P fs (dumpF name x fs).2 := by
  unfold dumpF
  refine .bind (only_lift _ fs) fun t fs1 h1 => ?_
  cases lift_fs h1
  obtain ⟨h2, h3⟩ := only_openW (P := P) name fs hP
  refine .bind h2 fun p fs2 h4 => ?_
  exact only_put p t fs2 (h3 p fs2 h4).1

/-! ### Sorting -/

theorem only_sortF {P : Path → Prop} (c : XP.PCfg) (look : Nat → Nat) (n : Nat) (a : Srt.Args) (inPlace : Bool) (infile : Str) (fs : FS) (r : Except FErr Str) (fs' : FS)
    (h : sortF c look n a inPlace infile fs = some (r, fs')) (hP : inPlace = true → ∀ p, resolve fs infile = some p → Dict.get? fs.files p ≠ none → P p) : Only P fs fs' := by
  unfold sortF at h
  cases hc : contents fs infile with
  | none => rw [hc] at h; cases h; exact .refl fs
  | some s =>
    rw [hc] at h
    simp only at h
    split at h
    · cases h; exact .refl fs
    · rename_i xc hx
      obtain ⟨y, hy, h⟩ := Option.map_eq_some_iff.1 h
      split at h
      · cases h; exact .refl fs
      · rename_i y'
        split at h
        · rename_i hi
          have := OnlyFiles.bind (P := P) (m := dumpF infile y') (f := fun _ => (pure [] : Act Str)) (only_dumpF infile y' fs (by
            intro p hp
            refine hP hi p hp ?_
            rw [contents, hp, Option.bind_some] at hc
            rw [hc]
            simp)) fun _ fs1 _ => .refl fs1
          rw [h] at this
          exact this.only fun _ h => h
        · have := OnlyFiles.bind (P := P) (m := lift (dumpsXml (some 2) y')) (f := fun t => (pure (t ++ ['\n']) : Act Str)) (only_lift _ fs) fun _ fs1 _ => .refl fs1
          rw [h] at this
          exact this.only fun _ h => h

/-! ### Partitions -/

theorem same_indexNone (look : Nat → Nat) : ∀ (fns : List Str) (fs : FS), (indexNone look fns fs).2 = fs
  | [], _ => rfl
  | fn :: fns, fs => by
    unfold indexNone
    cases h : readFile fn fs with
    | mk r fs1 =>
      cases read_fs h
      cases r with
      | error e => rw [bind_err h]
      | ok t =>
        rw [bind_eq h]
        cases h2 : lift (pfile look t) fs with
        | mk r fs2 =>
          cases lift_fs h2
          cases r with
          | error e => rw [bind_err h2]
          | ok f =>
            rw [bind_eq h2]
            split
            · exact same_indexNone look fns fs
            · rfl

theorem only_partition {P : Path → Prop} (a : PArgs) (infiles : List Str) (fs : FS) (hok : fs.OK) (hk : ∀ d, resolve fs a.outdir = some d → PlainKeys a (prepared fs d) infiles)
    (hP : ∀ d, resolve fs a.outdir = some d → d ∉ fs.dirs → Dict.get? fs.files d = none → P d ∧ ∀ n, P (d ++ [n])) : Only P fs (partition a infiles fs).2 := by
  by_cases h : isDir fs a.outdir = true ∨ writable fs a.outdir = none ∨ ∃ p, writable fs a.outdir = some p ∧ Dict.get? fs.files p ≠ none
  · rw [C107_exists a infiles fs h]; exact .refl fs
  · simp only [not_or, not_exists, not_and, Classical.not_not] at h
    obtain ⟨h1, h2, h3⟩ := h
    cases hw : writable fs a.outdir with
    | none => exact absurd hw h2
    | some d =>
      have hf := h3 d hw
      have hr := writable_resolve hw
      have hc : d ∉ fs.dirs ∧ d ≠ [] ∧ d.dropLast ∈ fs.dirs := by
        unfold writable at hw
        rw [hr, Option.bind_some] at hw
        split at hw
        · rename_i h; exact h
        · cases hw
      obtain ⟨r, fs', h4, h5, h6, -⟩ := C107_partial a infiles fs hok d hr hc.1 hc.2.1 hc.2.2 hf (hk d hr)
      obtain ⟨hp1, hp2⟩ := hP d hr hc.1 hf
      rw [h4]
      intro p hp
      refine ⟨h6 p fun n e => hp (by rw [e]; exact hp2 n), ?_⟩
      show p ∈ fs'.dirs ↔ _
      rw [h5, List.mem_cons]
      exact ⟨fun k => k.resolve_left fun e => hp (by rw [e]; exact hp1), .inr⟩

theorem createOutdir_cases (s : Str) (fs : FS) : (∃ e, createOutdir s fs = (.error e, fs)) ∨
    ∃ p, writable fs s = some p ∧ Dict.get? fs.files p = none ∧ createOutdir s fs = (.ok (), { fs with dirs := p :: fs.dirs }) := by
  unfold createOutdir
  split
  · exact .inl ⟨_, rfl⟩
  · rcases mkdir_cases s fs with ⟨e, h⟩ | ⟨p, h1, h2, h3⟩
    · exact .inl ⟨_, by rw [h]⟩
    · exact .inr ⟨p, h1, h2, by rw [h3]⟩

/-! ### C156 -/

/-- what is assumed of what is not modelled: the suffixes of a configuration for ODIN are as in C106, and the export to itsdb changes nothing but what is at the output or below it -/
structure World.Fair (w : World) : Prop where
  suffix : ∀ t v o s, w.json t = .ok v → Opt.odinOptions v = .ok o → (Dict.get? o Opt.SUF).bind Opt.V.str? = some s → PlainSuffix s
  itsdb : ∀ v x o fs, Only (fun p => ∃ d, resolve fs o = some d ∧ d <+: p) fs (w.itsdb v x o fs).2

/-- no IGT that is to be partitioned has a key with `/` (C107) -/
def KeysPlain (w : World) (argv : List Str) (fs : FS) : Prop :=
  ∀ ns k, Cmd.xigt argv = .ok (.partition, some ns) → strOf ns (lit! "key_path") = some k → ∀ d, resolve fs ((strOf ns (lit! "outdir")).getD []) = some d →
    PlainKeys ⟨w.path, k, (strOf ns (lit! "default_key")).getD [], (strOf ns (lit! "outdir")).getD [], w.look⟩ (prepared fs d) (listOf ns (lit! "infiles"))

omit [XmlLex] in
theorem xigt_ok {argv : List Str} {s : Cmd.Script} {ns : Dict Str Cmd.Val} (h : Cmd.xigt argv = .ok (s, some ns)) :
    ∃ l P, s.parser = some P ∧ Cmd.parseArgs P l = .ok ns ∧ Says argv s.word ∧ ∀ x ∈ l, x ∈ argv := by
  unfold Cmd.xigt at h
  cases hd : Cmd.dispatch argv with
  | error e => rw [hd] at h; cases h
  | ok sl =>
    obtain ⟨s', l⟩ := sl
    rw [hd] at h
    simp only [bind, Except.bind] at h
    split at h
    · cases h
    · rename_i P hP
      split at h
      · cases h
      · rename_i ns' hns
        cases h
        refine ⟨l, P, hP, hns, ?_, ?_⟩
        · rcases (Cmd.C152_iff argv s l).1 hd with ⟨h, -⟩ | h | h
          · exact ⟨_, .inl h⟩
          · exact ⟨_, .inl h⟩
          · exact ⟨_, .inr h⟩
        · intro x hx
          rcases (Cmd.C152_iff argv s l).1 hd with ⟨h, -⟩ | h | h <;> rw [h]
          · exact .tail _ hx
          · exact .tail _ (.tail _ hx)
          · exact .tail _ (.tail _ hx)

theorem said_mono {l argv : List Str} {o : Str} (h : ∀ x ∈ l, x ∈ argv) (ho : OutputSaid l o) : OutputSaid argv o := by
  rcases ho with ⟨h1, w, h2, h3⟩ | ⟨p, h1, h2⟩ | ⟨r, h1, h2⟩
  · exact .inl ⟨h o h1, w, h w h2, h3⟩
  · exact .inr (.inl ⟨p, h _ h1, h2⟩)
  · exact .inr (.inr ⟨r, h _ h1, h2⟩)

theorem resolve_getD {fs : FS} {o : Option Str} {p : Path} (h : resolve fs (o.getD []) = some p) : ∃ s, o = some s ∧ resolve fs s = some p := by
  cases o with
  | none => cases h
  | some s => exact ⟨s, rfl, h⟩

theorem strOf_some {ns : Dict Str Cmd.Val} {d s : Str} (h : strOf ns d = some s) : Dict.get? ns d = some (.str s) := by
  unfold strOf at h
  split at h
  · rename_i h'; rw [h', Option.some.inj h]
  · cases h

/-- a format that is not the default is the end of an argument -/
theorem format_said {f g : Str} {fs l : List Str} {ns : Dict Str Cmd.Val} (h : Cmd.parseArgs (Cmd.formatParser (g :: fs)) l = .ok ns) (hf : strOf ns (lit! "format") = some f)
    (hne : f ≠ g) : ∃ w ∈ l, f <:+ w := by
  refine Cmd.C155_word _ (Cmd.tidy_format (g :: fs)) ?_ l ns h _ f (strOf_some hf) ?_
  · intro a ha c hc
    simp only [Cmd.formatParser, List.mem_cons, List.not_mem_nil, or_false] at ha
    rcases ha with rfl | rfl | rfl | rfl | rfl | rfl <;> cases hc
  · intro v hv
    have : Dict.get? (Cmd.formatParser (g :: fs)).defaults (lit! "format") = some (.str g) := rfl
    rw [this] at hv
    cases hv
    simpa [Cmd.Val.strings] using hne

theorem only_import {P : Path → Prop} (w : World) (hw : w.Fair) (ns : Dict Str Cmd.Val) (fs : FS) (hok : fs.OK)
    (h1 : ∀ o p, strOf ns (lit! "output") = some o → resolve fs o = some p → P p)
    (h2 : ∀ o d n, strOf ns (lit! "output") = some o → strOf ns (lit! "format") = some (lit! "odin") → resolve fs o = some d → P (d ++ [n])) :
    Only P fs (importC w ns fs).2 := by
  unfold importC
  have hout : ∀ p, resolve fs ((strOf ns (lit! "output")).getD []) = some p → P p := by
    intro p hp
    obtain ⟨s, hs, hr⟩ := resolve_getD hp
    exact h1 s p hs hr
  have hcfg : ∀ c, (Opt.readConfig w.json c fs).2 = fs ∧ ∀ v, (Opt.readConfig w.json c fs).1 = .ok v → v = .null ∨ ∃ t, w.json t = .ok v := by
    intro c
    cases c with
    | none => exact ⟨rfl, fun v hv => by cases hv; exact .inl rfl⟩
    | some c =>
      have e : Opt.readConfig w.json (some c) = (readFile c >>= fun t => lift (w.json t)) := rfl
      rw [e]
      cases hr : readFile c fs with
      | mk r fs1 =>
        cases read_fs hr
        cases r with
        | error e => rw [bind_err hr]; exact ⟨rfl, fun v hv => by cases hv⟩
        | ok t =>
          rw [bind_eq hr]
          cases hj : w.json t with
          | error e => exact ⟨rfl, fun v hv => by cases hv⟩
          | ok v => exact ⟨rfl, fun v' hv => by cases hv; exact .inr ⟨t, hj⟩⟩
  have hcfg := hcfg (strOf ns (lit! "config"))
  cases hr : Opt.readConfig w.json (strOf ns (lit! "config")) fs with
  | mk r fs1 =>
    rw [hr] at hcfg
    obtain ⟨rfl, hv⟩ := hcfg
    simp only
    split
    · rename_i hf
      cases r with
      | error e => rw [bind_err hr]; exact .refl _
      | ok v =>
        rw [bind_eq hr]
        cases ho : Opt.odinOptions v with
        | error e => exact .refl _
        | ok o =>
          rw [lift_bind]
          cases hs : (Dict.get? o Opt.SUF).bind Opt.V.str? with
          | some suffix =>
            refine only_odin _ suffix _ _ ?_ fs1 hok ?_
            · rcases hv v rfl with rfl | ⟨t, ht⟩
              · cases ho
                cases hs
                exact plain_txt
              · exact hw.suffix t v o suffix ht ho hs
            · intro d hd
              obtain ⟨s, hs, hr⟩ := resolve_getD hd
              exact ⟨h1 s d hs hr, fun n => h2 s d n hs hf hr⟩
          | none => exact only_odinNoSuffix _ _ _ fs1 hout
    · unfold Opt.runToolbox
      cases r with
      | error e => rw [bind_err hr]; exact .refl _
      | ok v =>
        rw [bind_eq hr]
        cases ho : Opt.toolboxOptions v with
        | error e => exact .refl _
        | ok o =>
          rw [lift_bind]
          exact (only_importFile _ _ _ fs1 hout).only fun _ h => h

theorem only_export {P : Path → Prop} (w : World) (hw : w.Fair) (ns : Dict Str Cmd.Val) (fs : FS)
    (h1 : ∀ o p, strOf ns (lit! "output") = some o → resolve fs o = some p → P p)
    (h2 : ∀ o d p, strOf ns (lit! "output") = some o → strOf ns (lit! "format") = some (lit! "itsdb") → resolve fs o = some d → d <+: p → P p) :
    Only P fs (exportC w ns fs).2 := by
  unfold exportC
  have hcfg : ∀ c, (exportConfig w c fs).2 = fs := by
    intro c
    cases c with
    | none => rfl
    | some c =>
      cases c with
      | nil => rfl
      | cons c cs =>
        have e : exportConfig w (some (c :: cs)) = (readFile (c :: cs) >>= fun t => lift (w.json t) >>= fun v => (pure (some v) : Act (Option Opt.V))) := rfl
        rw [e]
        cases hr : readFile (c :: cs) fs with
        | mk r fs1 =>
          cases read_fs hr
          cases r with
          | error e => rw [bind_err hr]
          | ok t =>
            rw [bind_eq hr]
            cases hj : w.json t with
            | error e => rfl
            | ok v => rfl
  have hcfg := hcfg (strOf ns (lit! "config"))
  cases hc : exportConfig w (strOf ns (lit! "config")) fs with
  | mk r fs1 =>
    rw [hc] at hcfg
    cases hcfg
    cases r with
    | error e => rw [bind_err hc]; exact .refl _
    | ok v =>
      rw [bind_eq hc]
      cases hr : readFile ((strOf ns (lit! "input")).getD []) fs1 with
      | mk r fs2 =>
        cases read_fs hr
        cases r with
        | error e => rw [bind_err hr]; exact .refl _
        | ok t =>
          rw [bind_eq hr]
          cases ho : openText w.look t with
          | error e => exact .refl _
          | ok x =>
            rw [lift_bind]
            split
            · rename_i hf
              intro p hp
              refine hw.itsdb v x _ fs1 p ?_
              rintro ⟨d, hd, hpre⟩
              obtain ⟨s, hs, hr⟩ := resolve_getD hd
              exact hp (h2 s d p hs hf hr hpre)
            · cases hl : w.latex v with
              | error e => exact .refl _
              | ok cfg =>
                rw [lift_bind]
                refine (only_exportF cfg _ _ _ _ fs1 ?_).only fun _ h => h
                intro p hp
                obtain ⟨s, hs, hr⟩ := resolve_getD hp
                exact h1 s p hs hr

/-- **C156** (partial: for keys of partitions without `/`, see `C156_refuted`).  Whatever the arguments are, and however the command ends, nothing changes but what may change by that command line. -/
theorem C156_partial (w : World) (hw : w.Fair) (argv : List Str) (fs : FS) (hok : fs.OK) (hk : KeysPlain w argv fs) (e : Ended) (fs' : FS) (h : xigtF w argv fs = some (e, fs')) :
    Only (MayChange argv fs) fs fs' := by
  unfold xigtF at h
  cases hx : Cmd.xigt argv with
  | error st =>
    rw [hx] at h
    cases st <;> (cases h; exact .refl fs)
  | ok r =>
    rw [hx] at h
    obtain ⟨s, o⟩ := r
    cases o with
    | none => cases h; exact .refl fs
    | some ns =>
      obtain ⟨l, Q, hQ, hp, hsay, hl⟩ := xigt_ok hx
      cases s with
      | process => cases h; exact .refl fs
      | query => cases h; exact .refl fs
      | validate => cases h; exact .refl fs
      | sort =>
        cases hQ
        obtain ⟨r, h1, h2⟩ := Option.map_eq_some_iff.1 h
        cases h2
        obtain ⟨g1, g2⟩ := Cmd.C155_sort l ns hp
        refine only_sortF _ _ _ _ _ _ fs r.1 r.2 h1 ?_
        intro hi p hr hf
        obtain ⟨f, hf', hr⟩ := resolve_getD hr
        refine .sort f hsay (hl f (g2 f (strOf_some hf'))) ?_ hr hf
        unfold flagOf at hi
        split at hi
        · rename_i b hb
          rw [hi] at hb
          obtain ⟨v, h1, h2⟩ := g1 hb
          exact ⟨v, hl v h1, h2⟩
        · cases hi
      | partition =>
        cases hQ
        cases h
        have g := fun o ho => hl o (Cmd.C155_partition l ns hp o (strOf_some ho))
        unfold partitionC
        cases hkey : strOf ns (lit! "key_path") with
        | some k =>
          refine only_partition _ _ fs hok (fun d hd => hk ns k hx hkey d hd) ?_
          intro d hd hnd hnf
          obtain ⟨o, ho, hr⟩ := resolve_getD hd
          exact ⟨.made o hsay (g o ho) hr hnd hnf, fun n => .partitioned o d n hsay (g o ho) hr hnd hnf rfl⟩
        | none =>
          show Only _ fs ((createOutdir ((strOf ns (lit! "outdir")).getD []) >>= fun _ => indexNone w.look (listOf ns (lit! "infiles"))) fs).2
          rcases createOutdir_cases ((strOf ns (lit! "outdir")).getD []) fs with ⟨e, h⟩ | ⟨p, h1, h2, h3⟩
          · rw [bind_err h]; exact .refl fs
          · rw [bind_eq h3]
            obtain ⟨o, ho, hr⟩ := resolve_getD (writable_resolve h1)
            have hnd : p ∉ fs.dirs := by
              unfold writable at h1
              obtain ⟨q, -, h1⟩ := Option.bind_eq_some_iff.1 h1
              split at h1
              · rename_i h; cases h1; exact h.1
              · cases h1
            refine only_dir (.made o hsay (g o ho) hr hnd h2) ?_
            rw [same_indexNone]
            exact .refl _
      | «import» =>
        cases hQ
        cases h
        have g := fun o ho => said_mono hl (Cmd.C155_output _ l ns hp o (strOf_some ho))
        refine only_import w hw ns fs hok ?_ ?_
        · intro o p ho hr
          exact .imported o hsay (g o ho) hr
        · intro o d n ho hf hr
          obtain ⟨v, h1, h2⟩ := format_said hp hf (by decide)
          exact .importedIn o d n hsay (g o ho) ⟨v, hl v h1, h2⟩ hr rfl
      | «export» =>
        cases hQ
        cases h
        have g := fun o ho => said_mono hl (Cmd.C155_output _ l ns hp o (strOf_some ho))
        refine only_export w hw ns fs ?_ ?_
        · intro o p ho hr
          exact .exported o hsay (g o ho) hr
        · intro o d p ho hf hr hpre
          obtain ⟨v, h1, h2⟩ := format_said hp hf (by decide)
          exact .exportedTo o d hsay (g o ho) ⟨v, hl v h1, h2⟩ hr hpre

/-- commands that only read: with any other command, or none, all files and directories are as before -/
theorem C156_reads (w : World) (hw : w.Fair) (argv : List Str) (fs : FS) (hok : fs.OK) (e : Ended) (fs' : FS) (h : xigtF w argv fs = some (e, fs'))
    (hs : ∀ c ∈ [lit! "sort", lit! "import", lit! "export", lit! "partition"], ¬ Says argv c) :
    ∀ p, Dict.get? fs'.files p = Dict.get? fs.files p ∧ (p ∈ fs'.dirs ↔ p ∈ fs.dirs) := by
  intro p
  refine C156_partial w hw argv fs hok ?_ e fs' h p ?_
  · intro ns k hx
    obtain ⟨l, P, -, -, hsay, -⟩ := xigt_ok hx
    exact absurd hsay (hs _ (by simp [Cmd.Script.word]))
  · intro hm
    cases hm with
    | sort _ h => exact hs _ (by simp) h
    | imported _ h => exact hs _ (by simp) h
    | importedIn _ _ _ h => exact hs _ (by simp) h
    | exported _ h => exact hs _ (by simp) h
    | exportedTo _ _ h => exact hs _ (by simp) h
    | made _ h => exact hs _ (by simp) h
    | partitioned _ _ _ h => exact hs _ (by simp) h

theorem says_unique {argv : List Str} {c d : Str} (h : Says argv c) (k : Says argv d) (hc : c ≠ lit! "--") (hd : d ≠ lit! "--") : c = d := by
  obtain ⟨r, h | h⟩ := h <;> obtain ⟨q, k | k⟩ := k <;> rw [h] at k <;> injection k with k1 k2
  · exact absurd k1 hc
  · exact absurd k1.symm hd
  · injection k2

/-- sorting without an argument that begins with `--in` changes nothing -/
theorem C156_sort (w : World) (hw : w.Fair) (argv : List Str) (fs : FS) (hok : fs.OK) (e : Ended) (fs' : FS) (h : xigtF w argv fs = some (e, fs')) (hs : Says argv (lit! "sort"))
    (hi : ∀ a ∈ argv, ¬ lit! "--in" <+: a) : ∀ p, Dict.get? fs'.files p = Dict.get? fs.files p ∧ (p ∈ fs'.dirs ↔ p ∈ fs.dirs) := by
  intro p
  refine C156_partial w hw argv fs hok ?_ e fs' h p ?_
  · intro ns k hx
    obtain ⟨l, P, -, -, hsay, -⟩ := xigt_ok hx
    exact absurd (says_unique hsay hs (by decide) (by decide)) (by decide)
  · intro hm
    cases hm with
    | sort _ _ _ h =>
      obtain ⟨v, h1, h2, -⟩ := h
      exact hi v h1 h2
    | imported _ h => exact absurd (says_unique h hs (by decide) (by decide)) (by decide)
    | importedIn _ _ _ h => exact absurd (says_unique h hs (by decide) (by decide)) (by decide)
    | exported _ h => exact absurd (says_unique h hs (by decide) (by decide)) (by decide)
    | exportedTo _ _ h => exact absurd (says_unique h hs (by decide) (by decide)) (by decide)
    | made _ h => exact absurd (says_unique h hs (by decide) (by decide)) (by decide)
    | partitioned _ _ _ h => exact absurd (says_unique h hs (by decide) (by decide)) (by decide)

end

section
attribute [local instance] asciiUni asciiXml

def exWorld : World where
  path := ⟨100, fun _ => [], fun _ => []⟩
  look := id
  steps := 10
  depth := 10
  fmt := Qry.exQ
  json _ := .error .valueError
  toolbox _ := shout
  odin _ := shout
  latex _ := .ok plainCfg
  itsdb _ _ _ := pure ()

theorem exWorld_fair : exWorld.Fair := ⟨fun _ _ _ _ h => by (cases h), fun _ _ _ fs => .refl fs⟩

/-- files that change -/
example : (xigtF exWorld [lit! "sort", lit! "--in", lit! "--igt-key=@id", lit! "in.xml"] (oneFile unsorted)).map (fun r => (r.1, r.2.files)) =
    some (⟨0, []⟩, [([lit! "in.xml"], lit! "<xigt-corpus>\n  <igt id=\"i1\">\n    <metadata>\n      <meta>m</meta>\n    </metadata>\n  </igt>\n  <igt id=\"i2\" />\n</xigt-corpus>\n")]) := by
  decide +kernel

example : (xigtF exWorld [lit! "import", lit! "-i", lit! "in.xml", lit! "-oout"] (oneFile (lit! "a"))).map (fun r => (r.1, r.2.files)) =
    some (⟨0, []⟩, [([lit! "in.xml"], lit! "a"), ([lit! "out"], lit! "a!")]) := by decide +kernel

example : (xigtF exWorld [lit! "partition", lit! "--key-path=@doc", lit! "out", lit! "in.xml"] (twoDocs (lit! "a") (lit! "b"))).map (fun r => (r.1, r.2.files)) =
    some (⟨0, []⟩, [([lit! "in.xml"], lit! "<xigt-corpus><igt id=\"i1\" doc=\"a\" /><igt id=\"i2\" doc=\"b\" /></xigt-corpus>"),
     ([lit! "out", lit! "a.xml"], lit! "<xigt-corpus>\n  <igt id=\"i1\" doc=\"a\" />\n</xigt-corpus>\n"),
     ([lit! "out", lit! "b.xml"], lit! "<xigt-corpus>\n  <igt id=\"i2\" doc=\"b\" />\n</xigt-corpus>\n")]) := by decide +kernel

/-- files that do not: without `--in-place` the corpus is printed, `--i` may be three options, a query -/
example : (xigtF exWorld [lit! "sort", lit! "--igt-key=@id", lit! "in.xml"] (oneFile unsorted)).map (fun r => (r.1, r.2.files)) =
    some (⟨0, lit! "<xigt-corpus>\n  <igt id=\"i1\">\n    <metadata>\n      <meta>m</meta>\n    </metadata>\n  </igt>\n  <igt id=\"i2\" />\n</xigt-corpus>\n\n"⟩, [([lit! "in.xml"], unsorted)]) := by
  decide +kernel

example : (xigtF exWorld [lit! "sort", lit! "--i", lit! "in.xml"] (oneFile unsorted)).map (fun r => (r.1, r.2.files)) = some (⟨2, []⟩, [([lit! "in.xml"], unsorted)]) := by
  decide +kernel

example : (xigtF exWorld [lit! "query", lit! "-c", lit! "igt", lit! "in.xml"] (oneFile unsorted)).map (fun r => (r.1, r.2.files)) =
    some (⟨0, lit! "in.xml:\n 2\tigt\t\n\n"⟩, [([lit! "in.xml"], unsorted)]) := by
  decide +kernel

example : (xigtF exWorld [lit! "validate", lit! "in.xml"] (oneFile unsorted)).map (fun r => (r.1, r.2.files)) = some (⟨0, []⟩, [([lit! "in.xml"], unsorted)]) := by
  decide +kernel

/-- without a key path a directory is made, then there is an exception -/
example : (xigtF exWorld [lit! "partition", lit! "out", lit! "in.xml"] (twoDocs (lit! "a") (lit! "b"))).map (fun r => (r.1, r.2.dirs)) =
    some (⟨1, []⟩, [[lit! "out"], []]) := by decide +kernel

/-- the conditions of C156 for a partition -/
example : KeysPlain exWorld [lit! "partition", lit! "--key-path=@doc", lit! "out", lit! "in.xml"] (twoDocs (lit! "a") (lit! "b")) := by
  intro ns k hx hk d hd
  cases hx
  cases hk
  cases hd
  exact twoDocs_keys

/-- **C156** refuted: with keys that are paths, a partition changes a file outside of its directory, here its own input -/
theorem C156_refuted : ∃ (w : World) (argv : List Str) (fs fs' : FS), w.Fair ∧ fs.OK ∧ xigtF w argv fs = some (⟨0, []⟩, fs') ∧ ¬ MayChange argv fs [lit! "in.xml"] ∧
    Dict.get? fs'.files [lit! "in.xml"] ≠ Dict.get? fs.files [lit! "in.xml"] := by
  have h1 : (xigtF exWorld [lit! "partition", lit! "--key-path=@doc", lit! "out", lit! "in.xml"] (twoDocs (lit! "../in") (lit! "b"))).map (fun r => (r.1, Dict.get? r.2.files [lit! "in.xml"])) =
    some (⟨0, []⟩, some (lit! "<xigt-corpus>\n  <igt id=\"i1\" doc=\"../in\" />\n</xigt-corpus>\n")) := by decide +kernel
  obtain ⟨⟨e, fs'⟩, h2, h3⟩ := Option.map_eq_some_iff.1 h1
  injection h3 with h3 h4
  subst h3
  refine ⟨exWorld, _, _, fs', exWorld_fair, twoDocs_ok _ _, h2, ?_, ?_⟩
  · intro hm
    have key : ∀ c, Says [lit! "partition", lit! "--key-path=@doc", lit! "out", lit! "in.xml"] c → c = lit! "partition" := by
      rintro c ⟨r, h | h⟩
      · injection h with h _; exact h.symm
      · injection h with h _; cases h
    cases hm with
    | sort _ h => cases key _ h
    | imported _ h => cases key _ h
    | importedIn _ _ _ h => cases key _ h
    | exported _ h => cases key _ h
    | exportedTo _ _ h => cases key _ h
    | made o _ _ _ _ h => cases h
    | partitioned o d n _ ho hr hnd hnf he =>
      cases d with
      | nil => exact hnd (.head _)
      | cons c d =>
        have := congrArg List.length he
        simp at this
  · show Dict.get? fs'.files [lit! "in.xml"] ≠ _
    rw [h4]
    decide

end
end Xigt.Files
