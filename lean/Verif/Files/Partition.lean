import Verif.Files.ImportProps
import Verif.Scripts.PartitionProps
import Verif.Xml.TextProps
/-
C107: what partitioning does to the files (/repo/xigt/scripts/xigt_partition.py), in a file system in which
output files may be input files.

Files are read as wholes before IGTs are looked at, so which of several exceptions is raised may differ.
-/

set_option linter.unusedSectionVars false

namespace Xigt.Files

section
variable [Uni] [XmlLex]

/-! ### Model -/

/-- the arguments of the script -/
structure PArgs where
  cfg : XP.PCfg
  keyPath : Str
  defaultKey : Str
  outdir : Str
  /-- how the parser reads ahead (Xml/Stream.lean) -/
  look : Nat → Nat

/-- xigtxml.py:53-55 `load(fn, mode='transient')`, for the text of the file -/
def pfile (look : Nat → Nat) (t : Str) : Py Part.PFile := do
  let p ← readText t
  let o ← openXml look p
  let ks ← drain o.igts
  return ⟨o.corpus, ks⟩

/-- `xigtxml.load(fn, mode='transient')` -/
def load (a : PArgs) (fn : Str) : Act Part.PFile := do
  let t ← readFile fn
  lift (pfile a.look t)

/-- the arguments for the functions of PartitionModel that use no files -/
def PArgs.env (a : PArgs) (load : Str → Py Part.PFile) : Part.PEnv where
  cfg := a.cfg
  keyPath := a.keyPath
  defaultKey := a.defaultKey
  outdir := a.outdir
  load := load
  dump _ x := (dumpsXml (some 2) x).map fun _ => ()

/-- those without any files -/
def PArgs.bare (a : PArgs) : Part.PEnv := a.env fun _ => .error .runtimeError

/-- xigt_partition.py:29-37 `create_outdir` -/
def createOutdir (outdir : Str) : Act Unit := fun fs =>
  if isDir fs outdir then (.error (.exit 1), fs)
  else match mkdir outdir fs with
    | (.ok _, fs') => (.ok (), fs')
    | (.error _, fs') => (.error (.exit 1), fs')

/-- xigt_partition.py:20-22, 39-43 -/
def indexF (a : PArgs) : List Str → Part.Idx → Act Part.Idx
  | [], idx => pure idx
  | fn :: fns, idx => do
    let f ← load a fn
    let idx ← lift (Part.indexLoop a.bare fn f 0 f.igts idx)
    indexF a fns idx

/-- xigt_partition.py:50-54 -/
def collectF (a : PArgs) : Dict Str (List Nat) → List Obj → Act (List Obj)
  | [], held => pure held
  | (fn, s) :: d, held => do
    let f ← load a fn
    let held ← lift (corpusExtend held (Part.pick s 0 f.igts))
    collectF a d held

/-- xigtxml.py:63-72 `dump(name, x)`: the file is opened when the document has been made -/
def dumpF (name : Str) (x : Obj) : Act Unit := do
  let t ← lift (dumpsXml (some 2) x)
  let p ← openW name
  put p t

/-- xigt_partition.py:23-27, 48-57 -/
def writeF (a : PArgs) : Part.Idx → Act Unit
  | [] => pure ()
  | (key, d) :: idx => do
    let igts ← collectF a d []
    dumpF (Part.outName a.bare key) (Part.newCorpus igts)
    writeF a idx

/-- xigt_partition.py:12-27 `run` -/
def partition (a : PArgs) (infiles : List Str) : Act Unit := do
  createOutdir a.outdir
  let idx ← indexF a infiles []
  writeF a idx

/-! ### Specification -/

/-- the files as they are -/
def asRead (a : PArgs) (fs : FS) (fn : Str) : Py Part.PFile :=
  match contents fs fn with
  | some t => pfile a.look t
  | none => .error .runtimeError

/-- the keys of the IGTs are not paths -/
def PlainKeys (a : PArgs) (fs : FS) (infiles : List Str) : Prop := '/' ∉ a.defaultKey ∧
  ∀ fn ∈ infiles, ∀ f, asRead a fs fn = .ok f → ∀ x ∈ f.igts, ∀ k, Part.keyOf a.bare f x = .ok (some k) → '/' ∉ k

/-! ### Lemmas -/

theorem bind_lift {α β : Type} (m : Py α) (f : α → Act β) (fs : FS) : (lift m >>= f) fs =
    match m with | .ok x => f x fs | .error e => (.error (.py e), fs) := by
  cases m with
  | ok x => exact bind_ok (m := lift (.ok x)) rfl
  | error e => exact bind_error (m := lift (.error e)) rfl

theorem load_eq (a : PArgs) (fn : Str) (fs : FS) : load a fn fs =
    match contents fs fn with
    | some t => (match pfile a.look t with | .ok f => (.ok f, fs) | .error e => (.error (.py e), fs))
    | none => (.error .os, fs) := by
  unfold load
  cases hc : contents fs fn with
  | none => rw [bind_error (e := .os) (fs' := fs) (by simp only [readFile, hc])]
  | some t =>
    rw [bind_ok (a := t) (fs' := fs) (by simp only [readFile, hc])]
    simp only
    cases pfile a.look t <;> rfl

theorem load_ok {a : PArgs} {fn : Str} {fs : FS} {f : Part.PFile} (h : asRead a fs fn = .ok f) : load a fn fs = (.ok f, fs) := by
  rw [load_eq]
  unfold asRead at h
  cases hc : contents fs fn with
  | none => rw [hc] at h; cases h
  | some t => rw [hc] at h; simp only at h; simp only [h]

theorem load_error {a : PArgs} {fn : Str} {fs : FS} {e : PyErr} (h : asRead a fs fn = .error e) : ∃ e', load a fn fs = (.error e', fs) := by
  rw [load_eq]
  unfold asRead at h
  cases hc : contents fs fn with
  | none => exact ⟨_, rfl⟩
  | some t => rw [hc] at h; simp only at h; simp only [h]; exact ⟨_, rfl⟩

/-- a result in the file system for a result without: the same, or some exception for an exception -/
def Agrees {α : Type} (r : Except FErr α) : Py α → Prop
  | .ok x => r = .ok x
  | .error _ => ∃ e, r = .error e

theorem indexLoop_env (a : PArgs) (l : Str → Py Part.PFile) (fn : Str) (f : Part.PFile) : ∀ xs i idx,
    Part.indexLoop (a.env l) fn f i xs idx = Part.indexLoop a.bare fn f i xs idx := by
  intro xs
  induction xs with
  | nil => intro i idx; rfl
  | cons x xs ih =>
    intro i idx
    rw [Part.indexLoop, Part.indexLoop]
    have : Part.keyOf (a.env l) f x = Part.keyOf a.bare f x := rfl
    rw [this]
    cases Part.keyOf a.bare f x with
    | error e => rfl
    | ok k => exact ih _ _

theorem indexF_eq (a : PArgs) (fs : FS) : ∀ fns idx, ∃ r, indexF a fns idx fs = (r, fs) ∧
    Agrees r (Part.indexAll (a.env (asRead a fs)) fns idx) := by
  intro fns
  induction fns with
  | nil => intro idx; exact ⟨_, rfl, rfl⟩
  | cons fn fns ih =>
    intro idx
    rw [indexF, Part.indexAll, Part.index]
    simp only [PArgs.env] at *
    cases hl : asRead a fs fn with
    | error e =>
      obtain ⟨e', he⟩ := load_error hl
      exact ⟨_, bind_error he, _, rfl⟩
    | ok f =>
      rw [bind_ok (load_ok hl), bind_lift]
      simp only [bind, Except.bind]
      have := indexLoop_env a (asRead a fs) fn f f.igts 0 idx
      rw [PArgs.env] at this
      rw [this]
      cases Part.indexLoop a.bare fn f 0 f.igts idx with
      | error e => exact ⟨_, rfl, _, rfl⟩
      | ok idx1 => exact ih idx1

theorem collectF_eq (a : PArgs) (fs : FS) (l : Str → Py Part.PFile) : ∀ (d : Dict Str (List Nat)) (held : List Obj),
    (∀ p ∈ d, asRead a fs p.1 = l p.1) →
    ∃ r, collectF a d held fs = (r, fs) ∧ Agrees r (Part.collect (a.env l) d held) := by
  intro d
  induction d with
  | nil => intro held _; exact ⟨_, rfl, rfl⟩
  | cons p d ih =>
    intro held hd
    obtain ⟨fn, s⟩ := p
    have hfn := hd (fn, s) (by simp)
    simp only at hfn
    rw [collectF, Part.collect]
    have hl : (a.env l).load fn = l fn := rfl
    rw [hl]
    cases hr : l fn with
    | error e =>
      rw [hr] at hfn
      obtain ⟨e', he⟩ := load_error hfn
      exact ⟨_, bind_error he, _, rfl⟩
    | ok f =>
      rw [hr] at hfn
      rw [bind_ok (load_ok hfn), bind_lift]
      simp only [bind, Except.bind]
      cases corpusExtend held (Part.pick s 0 f.igts) with
      | error e => exact ⟨_, rfl, _, rfl⟩
      | ok held' => exact ih held' fun q hq => hd q (by simp [hq])

theorem dumpF_eq (name : Str) (x : Obj) (fs : FS) : dumpF name x fs =
    match dumpsXml (some 2) x with
    | .error e => (.error (.py e), fs)
    | .ok t => match writable fs name with
      | some p => (.ok (), fs.put p t)
      | none => (.error .os, fs) := by
  unfold dumpF
  rw [bind_lift]
  cases dumpsXml (some 2) x with
  | error e => rfl
  | ok t =>
    simp only
    cases hw : writable fs name with
    | none => rw [bind_error (e := .os) (fs' := fs) (by simp only [openW, hw])]
    | some p =>
      rw [bind_ok (a := p) (fs' := fs.put p []) (by simp only [openW, hw, FS.put])]
      show (Except.ok (), (fs.put p []).put p (((Dict.get? (fs.put p []).files p).getD []) ++ t)) = _
      rw [get_put, if_pos rfl, put_put]
      rfl

theorem pathJoin_inj {o n m : Str} (hn : Name n) (hm : Name m) (h : Part.pathJoin o n = Part.pathJoin o m) : n = m := by
  have hh : ∀ n : Str, Name n → n.head? ≠ some '/' := by
    intro n hn e
    cases n with
    | nil => cases e
    | cons c s => simp only [List.head?_cons, Option.some.injEq] at e; exact hn.slash (by simp [e])
  rw [Part.pathJoin, Part.pathJoin, if_neg (hh n hn), if_neg (hh m hm)] at h
  split at h
  · exact List.append_cancel_left h
  · exact (List.cons.inj (List.append_cancel_left h)).2

/-- the name of the file for a key -/
def keyFile (a : PArgs) (k : Option Str) : Str := Part.normalizeKey (k.getD a.defaultKey) ++ lit! ".xml"

theorem keyFile_name {a : PArgs} {k : Option Str} (h : '/' ∉ k.getD a.defaultKey) : Name (keyFile a k) := by
  have hl : 4 ≤ (keyFile a k).length := by simp [keyFile]
  refine ⟨fun hm => ?_, fun e => ?_, fun e => ?_, fun e => ?_⟩
  · rcases List.mem_append.1 hm with hm | hm
    · rw [Part.normalizeKey, List.mem_map] at hm
      obtain ⟨c, hc, e⟩ := hm
      split at e
      · cases e
      · exact h (e ▸ hc)
    · exact absurd hm (by decide)
  all_goals rw [e] at hl; simp at hl

/-- the state of the files while the output is written -/
structure Wrote (a : PArgs) (fs₁ : FS) (dout : Path) (out : Dict Str Obj) (fs : FS) : Prop where
  dirs : fs.dirs = fs₁.dirs
  cwd : fs.cwd = fs₁.cwd
  files : ∀ name c, Dict.get? out name = some c → ∃ n t, Name n ∧ name = Part.pathJoin a.outdir n ∧ dumpsXml (some 2) c = .ok t ∧
    Dict.get? fs.files (dout ++ [n]) = some t
  rest : ∀ p, (∀ n, Name n → p = dout ++ [n] → Dict.get? out (Part.pathJoin a.outdir n) = none) → Dict.get? fs.files p = Dict.get? fs₁.files p

theorem writeF_eq {a : PArgs} {fs₁ : FS} {dout : Path} (ho : resolve fs₁ a.outdir = some dout) (hd : dout ∈ fs₁.dirs)
    (hnew : ∀ n, Dict.get? fs₁.files (dout ++ [n]) = none ∧ dout ++ [n] ∉ fs₁.dirs) : ∀ (idx : Part.Idx) (out : Dict Str Obj) (fs : FS),
    (∀ q ∈ idx, '/' ∉ q.1.getD a.defaultKey) → (∀ q ∈ idx, ∀ p ∈ q.2, ∃ f, asRead a fs₁ p.1 = .ok f) →
    Wrote a fs₁ dout out fs →
    ∃ r fs', writeF a idx fs = (r, fs') ∧
      match Part.writeAll (a.env (asRead a fs₁)) idx out with
      | .ok out' => r = .ok () ∧ Wrote a fs₁ dout out' fs'
      | .error _ => (∃ e, r = .error e) ∧ ∃ out', Wrote a fs₁ dout out' fs' := by
  intro idx
  induction idx with
  | nil => intro out fs _ _ hw; exact ⟨_, _, rfl, rfl, hw⟩
  | cons q idx ih =>
    intro out fs hk hin hw
    obtain ⟨key, d⟩ := q
    rw [writeF, Part.writeAll, Part.write]
    have hread : ∀ p ∈ d, asRead a fs p.1 = asRead a fs₁ p.1 := by
      intro p hp
      obtain ⟨f, hf⟩ := hin (key, d) (by simp) p hp
      unfold asRead contents at hf ⊢
      rw [resolve_congr hw.dirs hw.cwd]
      cases hr : resolve fs₁ p.1 with
      | none => rfl
      | some q =>
        rw [hr] at hf
        simp only [Option.bind_some] at hf ⊢
        rw [hw.rest q]
        intro n _ e
        rw [e, (hnew n).1] at hf
        cases hf
    obtain ⟨r, h1, h2⟩ := collectF_eq a fs (asRead a fs₁) d [] hread
    cases hc : Part.collect (a.env (asRead a fs₁)) d [] with
    | error e =>
      rw [hc] at h2
      obtain ⟨e', rfl⟩ := h2
      exact ⟨_, _, bind_error h1, ⟨_, rfl⟩, out, hw⟩
    | ok igts =>
      rw [hc] at h2
      cases h2
      rw [bind_ok h1]
      have hname := keyFile_name (hk (key, d) (by simp))
      have hon : Part.outName a.bare key = Part.pathJoin a.outdir (keyFile a key) := rfl
      have hon' : Part.outName (a.env (asRead a fs₁)) key = Part.pathJoin a.outdir (keyFile a key) := rfl
      have hwr : writable fs (Part.outName a.bare key) = some (dout ++ [keyFile a key]) := by
        rw [writable_congr hw.dirs hw.cwd, hon, writable_join ho hd hname, if_neg (hnew _).2]
      have hdump : (a.env (asRead a fs₁)).dump (Part.outName (a.env (asRead a fs₁)) key) (Part.newCorpus igts) =
          (dumpsXml (some 2) (Part.newCorpus igts)).map fun _ => () := rfl
      simp only [bind, Except.bind, hdump]
      cases ht : dumpsXml (some 2) (Part.newCorpus igts) with
      | error e =>
        refine ⟨_, _, bind_error (e := .py e) (fs' := fs) (by rw [dumpF_eq, ht]), ⟨_, rfl⟩, out, hw⟩
      | ok t =>
        have hstep : dumpF (Part.outName a.bare key) (Part.newCorpus igts) fs = (.ok (), fs.put (dout ++ [keyFile a key]) t) := by
          rw [dumpF_eq, ht]
          simp only [hwr]
        have hw' : Wrote a fs₁ dout (out.set (Part.outName (a.env (asRead a fs₁)) key) (Part.newCorpus igts)) (fs.put (dout ++ [keyFile a key]) t) := by
          refine ⟨hw.dirs, hw.cwd, fun name c hg => ?_, fun p hp => ?_⟩
          · rw [Dict.get?_set, hon'] at hg
            split at hg
            · next e =>
              cases hg
              exact ⟨_, t, hname, e.symm, ht, by rw [get_put, if_pos rfl]⟩
            · next e =>
              obtain ⟨n, t', g1, g2, g3, g4⟩ := hw.files name c hg
              refine ⟨n, t', g1, g2, g3, ?_⟩
              rw [get_put, if_neg]
              · exact g4
              · intro e'
                have : keyFile a key = n := by simpa using e'
                exact e (by rw [g2, this])
          · rw [get_put]
            split
            · next e =>
              have := hp _ hname e.symm
              rw [hon', Dict.get?_set, if_pos rfl] at this
              cases this
            · refine hw.rest p fun n hn e => ?_
              have := hp n hn e
              rw [hon', Dict.get?_set] at this
              split at this
              · cases this
              · exact this
        obtain ⟨r, fs', g1, g2⟩ := ih _ _ (fun q hq => hk q (by simp [hq])) (fun q hq => hin q (by simp [hq])) hw'
        refine ⟨r, fs', ?_, ?_⟩
        · show (dumpF (Part.outName a.bare key) (Part.newCorpus igts) >>= fun _ => writeF a idx) fs = _
          rw [bind_ok hstep]
          exact g1
        · simpa only [Except.map] using g2

/-! ### Keys -/

theorem mem_dset {κ ν : Type} [DecidableEq κ] {d : Dict κ ν} {k : κ} {v : ν} {q : κ × ν} (h : q ∈ d.set k v) : q ∈ d ∨ q = (k, v) := by
  induction d with
  | nil => simpa [Dict.set] using h
  | cons p d ih =>
    obtain ⟨k', v'⟩ := p
    rw [Dict.set] at h
    split at h
    · next e =>
      rcases List.mem_cons.1 h with h | h
      · exact .inr (by rw [h, e])
      · exact .inl (by simp [h])
    · rcases List.mem_cons.1 h with h | h
      · exact .inl (by simp [h])
      · rcases ih h with h | h
        · exact .inl (by simp [h])
        · exact .inr h


theorem index_keys {a : PArgs} {fs : FS} {infiles : List Str} {idx : Part.Idx}
    (h : Part.indexAll (a.env (asRead a fs)) infiles [] = .ok idx) :
    (∀ q ∈ idx, ∃ fn ∈ infiles, ∃ f, asRead a fs fn = .ok f ∧ ∃ x ∈ f.igts, Part.keyOf a.bare f x = .ok q.1) ∧
    ∀ q ∈ idx, ∀ p ∈ q.2, ∃ f, asRead a fs p.1 = .ok f := by
  have hloop : ∀ fn f, asRead a fs fn = .ok f → ∀ xs, (∀ x ∈ xs, x ∈ f.igts) → ∀ i idx idx',
      Part.indexLoop (a.env (asRead a fs)) fn f i xs idx = .ok idx' →
      (∀ q ∈ idx', q ∈ idx ∨ (∃ x ∈ f.igts, Part.keyOf a.bare f x = .ok q.1)) ∧
      ((∀ q ∈ idx, ∀ p ∈ q.2, ∃ f, asRead a fs p.1 = .ok f) → ∀ q ∈ idx', ∀ p ∈ q.2, ∃ f, asRead a fs p.1 = .ok f) := by
    intro fn f hf xs
    induction xs with
    | nil =>
      intro _ i idx idx' h
      cases h
      exact ⟨fun q hq => .inl hq, fun h => h⟩
    | cons x xs ih =>
      intro hx i idx idx' h
      rw [Part.indexLoop] at h
      cases hk : Part.keyOf (a.env (asRead a fs)) f x with
      | error e => rw [hk] at h; cases h
      | ok k =>
        rw [hk] at h
        obtain ⟨g1, g2⟩ := ih (fun y hy => hx y (by simp [hy])) _ _ _ h
        refine ⟨fun q hq => ?_, fun hh => g2 fun q hq p hp => ?_⟩
        · rcases g1 q hq with h | h
          · rw [Part.idxAdd] at h
            rcases mem_dset h with h | h
            · exact .inl h
            · exact .inr ⟨x, hx x (by simp), by rw [h]; exact hk⟩
          · exact .inr h
        · rw [Part.idxAdd] at hq
          rcases mem_dset hq with h | h
          · exact hh q h p hp
          · rw [h] at hp
            simp only at hp
            rcases mem_dset hp with h | h
            · cases hg : Dict.get? idx k with
              | none => rw [hg] at h; cases h
              | some d =>
                rw [hg, Option.getD_some] at h
                exact hh _ (Dict.get?_mem hg) p h
            · rw [h]; exact ⟨f, hf⟩
  have hall : ∀ fns, (∀ fn ∈ fns, fn ∈ infiles) → ∀ idx idx', Part.indexAll (a.env (asRead a fs)) fns idx = .ok idx' →
      (∀ q ∈ idx', q ∈ idx ∨ ∃ fn ∈ infiles, ∃ f, asRead a fs fn = .ok f ∧ ∃ x ∈ f.igts, Part.keyOf a.bare f x = .ok q.1) ∧
      ((∀ q ∈ idx, ∀ p ∈ q.2, ∃ f, asRead a fs p.1 = .ok f) → ∀ q ∈ idx', ∀ p ∈ q.2, ∃ f, asRead a fs p.1 = .ok f) := by
    intro fns
    induction fns with
    | nil => intro _ idx idx' h; cases h; exact ⟨fun q hq => .inl hq, fun h => h⟩
    | cons fn fns ih =>
      intro hm idx idx' h
      rw [Part.indexAll, Part.index] at h
      have hl : (a.env (asRead a fs)).load fn = asRead a fs fn := rfl
      rw [hl] at h
      cases hf : asRead a fs fn with
      | error e => rw [hf] at h; cases h
      | ok f =>
        rw [hf] at h
        simp only [bind, Except.bind] at h
        cases hi : Part.indexLoop (a.env (asRead a fs)) fn f 0 f.igts idx with
        | error e => rw [hi] at h; cases h
        | ok idx1 =>
          rw [hi] at h
          obtain ⟨g1, g2⟩ := hloop fn f hf f.igts (fun x hx => hx) _ _ _ hi
          obtain ⟨k1, k2⟩ := ih (fun x hx => hm x (by simp [hx])) _ _ h
          refine ⟨fun q hq => ?_, fun hh => k2 (g2 hh)⟩
          rcases k1 q hq with h | h
          · rcases g1 q h with h | h
            · exact .inl h
            · exact .inr ⟨fn, hm fn (by simp), f, hf, h⟩
          · exact .inr h
  obtain ⟨h1, h2⟩ := hall infiles (fun _ h => h) _ _ h
  exact ⟨fun q hq => (h1 q hq).resolve_left (by simp), h2 (by simp)⟩

/-! ### C107 -/

/-- **C107** (partial: for keys without `/`, see `C107_refuted`).  Into a directory that there is not yet, but
can be made: whatever happens, no file outside that directory changes.  Partitioning succeeds just if
it does without files (C49), and then the directory has exactly the files that C49 speaks of. -/
theorem C107_partial (a : PArgs) (infiles : List Str) (fs : FS) (hok : fs.OK) (dout : Path) (ho : resolve fs a.outdir = some dout)
    (hnd : dout ∉ fs.dirs) (hne : dout ≠ []) (hpar : dout.dropLast ∈ fs.dirs) (hnf : Dict.get? fs.files dout = none)
    (hk : PlainKeys a (prepared fs dout) infiles) :
    ∃ r fs', partition a infiles fs = (r, fs') ∧ fs'.dirs = dout :: fs.dirs ∧
      (∀ p, (∀ n, p ≠ dout ++ [n]) → Dict.get? fs'.files p = Dict.get? fs.files p) ∧
      match Part.run (a.env (asRead a (prepared fs dout))) infiles with
      | .ok out => r = .ok () ∧ (∀ name c, Dict.get? out name = some c → ∃ t, dumpsXml (some 2) c = .ok t ∧ contents fs' name = some t) ∧
          ∀ n t, Dict.get? fs'.files (dout ++ [n]) = some t → ∃ c, Dict.get? out (Part.pathJoin a.outdir n) = some c ∧ dumpsXml (some 2) c = .ok t
      | .error _ => ∃ e, r = .error e := by
  have hprep : prepared fs dout = { fs with dirs := dout :: fs.dirs } := by rw [prepared, if_neg hnd]
  have hfiles : (prepared fs dout).files = fs.files := prepared_files _ _
  have ho' : resolve (prepared fs dout) a.outdir = some dout := resolve_mono (fun d hd => mem_prepared.2 (.inr hd)) (prepared_cwd _ _) ho
  have hd' : dout ∈ (prepared fs dout).dirs := mem_prepared.2 (.inl rfl)
  have hnew : ∀ n, Dict.get? (prepared fs dout).files (dout ++ [n]) = none ∧ dout ++ [n] ∉ (prepared fs dout).dirs := by
    intro n
    rw [hfiles]
    refine ⟨Classical.byContradiction fun h => hnd (hok.closed _ _ (.inl h)), fun h => ?_⟩
    rcases mem_prepared.1 h with h | h
    · have := congrArg List.length h; simp at this
    · exact hnd (hok.closed _ _ (.inr h))
  have hmk : createOutdir a.outdir fs = (.ok (), prepared fs dout) := by
    have h1 : isDir fs a.outdir = false := by rw [isDir, ho]; simp [hnd]
    have hw : writable fs a.outdir = some dout := by rw [writable, ho, Option.bind_some, if_pos ⟨hnd, hne, hpar⟩]
    have hf : Dict.has fs.files dout = false := (Dict.has_false_iff _ _).2 hnf
    have hm : mkdir a.outdir fs = (.ok (), prepared fs dout) := by
      rw [mkdir, hw]
      simp only [hf, Bool.false_eq_true, if_false]
      rw [hprep]
    rw [createOutdir, h1, hm]
    rfl
  have hdirs : (prepared fs dout).dirs = dout :: fs.dirs := by rw [hprep]
  have hrun : partition a infiles fs = (indexF a infiles [] >>= fun idx => writeF a idx) (prepared fs dout) := by
    rw [partition, bind_ok hmk]
  obtain ⟨r, h1, h2⟩ := indexF_eq a (prepared fs dout) infiles []
  rw [hrun, Part.run]
  cases hi : Part.indexAll (a.env (asRead a (prepared fs dout))) infiles [] with
  | error e =>
    rw [hi] at h2
    obtain ⟨e', rfl⟩ := h2
    exact ⟨_, _, bind_error h1, hdirs, fun p _ => (by rw [hfiles]), _, rfl⟩
  | ok idx =>
    rw [hi] at h2
    cases h2
    rw [bind_ok h1]
    obtain ⟨k1, k2⟩ := index_keys hi
    obtain ⟨r, fs', g1, g2⟩ := writeF_eq ho' hd' hnew idx [] (prepared fs dout) (fun q hq => by
        obtain ⟨fn, hfn, f, hf, x, hx, hkey⟩ := k1 q hq
        cases hq1 : q.1 with
        | none => exact hk.1
        | some k => rw [hq1] at hkey; exact hk.2 fn hfn f hf x hx k hkey) k2
      ⟨rfl, rfl, fun name c h => (by cases h), fun p _ => rfl⟩
    have hrest : ∀ out, Wrote a (prepared fs dout) dout out fs' → fs'.dirs = dout :: fs.dirs ∧
        ∀ p, (∀ n, p ≠ dout ++ [n]) → Dict.get? fs'.files p = Dict.get? fs.files p := by
      intro out hw
      refine ⟨by rw [hw.dirs, hdirs], fun p hp => ?_⟩
      rw [hw.rest p fun n _ e => absurd e (hp n), hfiles]
    simp only [bind, Except.bind]
    cases hwa : Part.writeAll (a.env (asRead a (prepared fs dout))) idx [] with
    | error e =>
      rw [hwa] at g2
      obtain ⟨⟨e', rfl⟩, out, hw⟩ := g2
      exact ⟨_, _, g1, (hrest out hw).1, (hrest out hw).2, _, rfl⟩
    | ok out =>
      rw [hwa] at g2
      obtain ⟨rfl, hw⟩ := g2
      refine ⟨_, _, g1, (hrest out hw).1, (hrest out hw).2, rfl, fun name c hc => ?_, fun n t ht => ?_⟩
      · obtain ⟨n, t, e1, e2, e3, e4⟩ := hw.files name c hc
        refine ⟨t, e3, ?_⟩
        rw [e2, contents_join ((resolve_congr hw.dirs hw.cwd _).trans ho') (by rw [hw.dirs]; exact hd') e1, e4]
      · apply Classical.byContradiction
        intro hno
        have := hw.rest (dout ++ [n]) fun m hm e => by
          have : n = m := by simpa using e
          subst this
          cases hg : Dict.get? out (Part.pathJoin a.outdir n) with
          | none => rfl
          | some c =>
            obtain ⟨n', t', e1, e2, e3, e4⟩ := hw.files _ c hg
            obtain rfl := pathJoin_inj hm e1 e2
            rw [ht] at e4
            cases e4
            exact absurd ⟨c, hg, e3⟩ hno
        rw [ht, (hnew n).1] at this
        cases this

/-- **C107**: if there is such a directory (or it cannot be made), the script ends with status 1, and nothing
is changed. -/
theorem C107_exists (a : PArgs) (infiles : List Str) (fs : FS) (h : isDir fs a.outdir = true ∨ writable fs a.outdir = none ∨
      ∃ p, writable fs a.outdir = some p ∧ Dict.get? fs.files p ≠ none) :
    partition a infiles fs = (.error (.exit 1), fs) := by
  have : createOutdir a.outdir fs = (.error (.exit 1), fs) := by
    rw [createOutdir]
    split
    · rfl
    · next hd =>
      rcases h with h | h | ⟨p, h, h'⟩
      · exact absurd h hd
      · rw [mkdir, h]
      · have hf : Dict.has fs.files p = true := by
          rw [Dict.has_true_iff]
          cases e : Dict.get? fs.files p with
          | none => exact absurd e h'
          | some v => exact ⟨v, rfl⟩
        rw [mkdir, h]
        simp only [hf, if_true]
  rw [partition, bind_error this]

end

section
attribute [local instance] asciiUni asciiXml

/-- a corpus of two IGTs in one file -/
def twoDocs (k1 k2 : Str) : FS where
  files := [([lit! "in.xml"], lit! "<xigt-corpus><igt id=\"i1\" doc=\"" ++ k1 ++ lit! "\" /><igt id=\"i2\" doc=\"" ++ k2 ++ lit! "\" /></xigt-corpus>")]
  dirs := [[]]
  cwd := []

def byDoc : PArgs := ⟨⟨100, fun _ => [], fun _ => []⟩, lit! "@doc", lit! "---", lit! "out", id⟩

/-- **C107** refuted: keys are taken as paths.  Here the first group replaces the input file, and the second,
which is then read from it, is lost: no file contains the second IGT any more, and no error is reported. -/
theorem C107_refuted : (partition byDoc [lit! "in.xml"] (twoDocs (lit! "../in") (lit! "b"))).1 = .ok () ∧
    (partition byDoc [lit! "in.xml"] (twoDocs (lit! "../in") (lit! "b"))).2.files =
    [([lit! "in.xml"], lit! "<xigt-corpus>\n  <igt id=\"i1\" doc=\"../in\" />\n</xigt-corpus>\n"),
      ([lit! "out", lit! "b.xml"], lit! "<xigt-corpus />")] := by
  decide +kernel

/-- with other keys nothing is lost -/
example : (partition byDoc [lit! "in.xml"] (twoDocs (lit! "a") (lit! "b"))).2.files =
    [([lit! "in.xml"], lit! "<xigt-corpus><igt id=\"i1\" doc=\"a\" /><igt id=\"i2\" doc=\"b\" /></xigt-corpus>"),
     ([lit! "out", lit! "a.xml"], lit! "<xigt-corpus>\n  <igt id=\"i1\" doc=\"a\" />\n</xigt-corpus>\n"),
     ([lit! "out", lit! "b.xml"], lit! "<xigt-corpus>\n  <igt id=\"i2\" doc=\"b\" />\n</xigt-corpus>\n")] := by decide +kernel

/-- the conditions of `C107_partial` hold of that -/
theorem twoDocs_ok (k1 k2 : Str) : (twoDocs k1 k2).OK := by
  refine ⟨fun p h c hc => ?_, fun p h => ?_, fun p n h => ?_⟩
  · rcases h with h | h
    · rw [ne_eq, Dict.get?_eq_none_iff, Classical.not_not] at h
      have : p = [lit! "in.xml"] := by simpa [twoDocs, Dict.keys] using h
      subst this
      have : c = lit! "in.xml" := by simpa using hc
      subst this
      constructor <;> decide
    · have : p = [] := by simpa [twoDocs] using h
      subst this; cases hc
  · have : p = [] := by simpa [twoDocs] using h
    subst this; rfl
  · rcases h with h | h
    · rw [ne_eq, Dict.get?_eq_none_iff, Classical.not_not] at h
      have h : p ++ [n] = [lit! "in.xml"] := by simpa [twoDocs, Dict.keys] using h
      cases p with
      | nil => exact List.mem_singleton.2 rfl
      | cons c p => simp at h
    · simp [twoDocs] at h

theorem twoDocs_keys : PlainKeys byDoc (prepared (twoDocs (lit! "a") (lit! "b")) [lit! "out"]) [lit! "in.xml"] := by
  refine ⟨by decide, fun fn hfn f hf x hx k hk => ?_⟩
  have : fn = lit! "in.xml" := by simpa using hfn
  subst this
  have h : (asRead byDoc (prepared (twoDocs (lit! "a") (lit! "b")) [lit! "out"]) (lit! "in.xml")).toOption.map
      (fun f => f.igts.map fun x => (Part.keyOf byDoc.bare f x).toOption) = some [some (some (lit! "a")), some (some (lit! "b"))] := by
    decide +kernel
  rw [hf] at h
  have h' : f.igts.map (fun x => (Part.keyOf byDoc.bare f x).toOption) = [some (some (lit! "a")), some (some (lit! "b"))] := by
    simpa [Except.toOption] using h
  have hm : (Part.keyOf byDoc.bare f x).toOption ∈ [some (some (lit! "a")), some (some (lit! "b"))] := h' ▸ List.mem_map_of_mem hx
  rw [hk] at hm
  have : k = lit! "a" ∨ k = lit! "b" := by simpa [Except.toOption] using hm
  rcases this with rfl | rfl <;> decide

example : ∃ r fs', partition byDoc [lit! "in.xml"] (twoDocs (lit! "a") (lit! "b")) = (r, fs') ∧
    Dict.get? fs'.files [lit! "in.xml"] = Dict.get? (twoDocs (lit! "a") (lit! "b")).files [lit! "in.xml"] := by
  obtain ⟨r, fs', h, _, h', _⟩ := C107_partial byDoc [lit! "in.xml"] _ (twoDocs_ok (lit! "a") (lit! "b")) [lit! "out"]
    (by decide) (by decide) (by decide) (by decide) (by decide) twoDocs_keys
  exact ⟨r, fs', h, h' _ fun n => (by simp)⟩

/-- and a second time the directory is there -/
example (fs : FS) (h : (partition byDoc [lit! "in.xml"] (twoDocs (lit! "a") (lit! "b"))).2 = fs) :
    partition byDoc [lit! "in.xml"] fs = (.error (.exit 1), fs) :=
  C107_exists byDoc _ fs (.inl (by rw [← h]; decide +kernel))

end
end Xigt.Files
