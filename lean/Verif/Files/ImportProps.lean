import Verif.Files.Lemmas
import Verif.Import.OdinModel
/- C106: what importing does to the files. -/

set_option linter.unusedSectionVars false

namespace Xigt.Files

/-! ### The condition -/

/-- a file system as there can be: names are names, nothing is both a file and a directory, and everything is
in a directory -/
structure FS.OK (fs : FS) : Prop where
  names : ∀ p, (Dict.get? fs.files p ≠ none ∨ p ∈ fs.dirs) → ∀ c ∈ p, Name c
  excl : ∀ p ∈ fs.dirs, Dict.get? fs.files p = none
  closed : ∀ p n, (Dict.get? fs.files (p ++ [n]) ≠ none ∨ p ++ [n] ∈ fs.dirs) → p ∈ fs.dirs

/-- what is to be imported: everything in the directory whose name ends in the suffix and does not begin
with a full stop -/
def Input (fs : FS) (d : Path) (suffix n : Str) : Prop :=
  (Dict.get? fs.files (d ++ [n]) ≠ none ∨ d ++ [n] ∈ fs.dirs) ∧ suffix <:+ n ∧ n.head? ≠ some '.'

/-! ### Lemmas -/

theorem mem_names {fs : FS} {d : Path} {n : Str} : n ∈ names fs d ↔ Dict.get? fs.files (d ++ [n]) ≠ none ∨ d ++ [n] ∈ fs.dirs := by
  have hk : ∀ p : Path, (Dict.get? fs.files p ≠ none) ↔ p ∈ fs.files.map Prod.fst := by
    intro p
    rw [ne_eq, Dict.get?_eq_none_iff, Classical.not_not]; rfl
  rw [hk, ← List.mem_append, names, List.mem_filterMap]
  constructor
  · rintro ⟨p, hp, hl⟩
    simp only [List.mem_filter, Bool.and_eq_true, decide_eq_true_eq] at hp
    obtain ⟨h1, h2, h3⟩ := hp
    obtain ⟨q, hq⟩ := List.getLast?_eq_some_iff.1 hl
    rw [hq, List.dropLast_concat] at h3
    rw [← h3, ← hq]; exact h1
  · intro h
    refine ⟨_, List.mem_filter.2 ⟨h, ?_⟩, ?_⟩ <;> simp

theorem mem_globNames {fs : FS} {inpath suffix : Str} {d : Path} (hr : resolve fs inpath = some d) (hd : d ∈ fs.dirs) {n : Str} :
    n ∈ globNames fs inpath suffix ↔ Input fs d suffix n := by
  rw [globNames, hr]
  simp only [if_pos hd, List.mem_filter, Bool.and_eq_true, decide_eq_true_eq, mem_names]
  rfl

theorem importAll_cons {imp : Str → Py Str} {suffix i o n : Str} {ns : List Str} {fs : FS} :
    importAll imp suffix i o (n :: ns) fs =
      match importFile imp (Part.pathJoin i n) (Part.pathJoin o (subSuffix suffix n)) fs with
      | (.ok _, fs') => importAll imp suffix i o ns fs'
      | (.error e, fs') => (.error e, fs') := by
  rw [importAll]
  rcases h : importFile imp (Part.pathJoin i n) (Part.pathJoin o (subSuffix suffix n)) fs with ⟨_ | _, fs'⟩
  · exact bind_error h
  · exact bind_ok h

section
variable {imp : Str → Py Str} {suffix inpath outpath : Str} {di dout : Path}

/-- the output of an input -/
def outOf (dout : Path) (suffix n : Str) : Path := dout ++ [subSuffix suffix n]

theorem importAll_spec {all : List Str} : ∀ (ns : List Str) (fs : FS), (∀ n ∈ ns, n ∈ all) → (∀ n ∈ all, Name n ∧ Name (subSuffix suffix n)) →
    (∀ n ∈ all, ∀ m ∈ all, di ++ [n] ≠ outOf dout suffix m) → (∀ n ∈ all, ∀ m ∈ all, outOf dout suffix n = outOf dout suffix m → n = m) →
    resolve fs inpath = some di → di ∈ fs.dirs → resolve fs outpath = some dout → dout ∈ fs.dirs →
    ∀ r fs', importAll imp suffix inpath outpath ns fs = (r, fs') →
      fs'.dirs = fs.dirs ∧ fs'.cwd = fs.cwd ∧ (∀ p, (∀ n ∈ ns, p ≠ outOf dout suffix n) → Dict.get? fs'.files p = Dict.get? fs.files p) ∧
      (r = .ok () → ∀ n ∈ ns, ∃ t u, Dict.get? fs.files (di ++ [n]) = some t ∧ imp t = .ok u ∧ outOf dout suffix n ∉ fs.dirs ∧
        Dict.get? fs'.files (outOf dout suffix n) = some u) ∧
      ((∀ n ∈ ns, ∃ t u, Dict.get? fs.files (di ++ [n]) = some t ∧ imp t = .ok u ∧ outOf dout suffix n ∉ fs.dirs) → r = .ok ()) := by
  intro ns
  induction ns with
  | nil =>
    intro fs _ _ _ _ _ _ _ _ r fs' h
    cases h
    exact ⟨rfl, rfl, fun _ _ => rfl, fun _ n hn => (by cases hn), fun _ => rfl⟩
  | cons n ns ih =>
    intro fs hall hname hsep hinj hi hdi ho hdo r fs' h
    rw [importAll_cons, importFile_eq] at h
    have hn := hall n (by simp)
    rw [contents_join hi hdi (hname n hn).1, writable_join ho hdo (hname n hn).2] at h
    have hres := resolve_join hi hdi (hname n hn).1
    rw [hres] at h
    have hfail : ∀ e, (Except.error e, fs) = (r, fs') → (fs'.dirs = fs.dirs ∧ fs'.cwd = fs.cwd ∧
        (∀ p, (∀ m ∈ n :: ns, p ≠ outOf dout suffix m) → Dict.get? fs'.files p = Dict.get? fs.files p) ∧ r = .error e) := by
      intro e he
      cases he
      exact ⟨rfl, rfl, fun _ _ => rfl, rfl⟩
    cases ht : Dict.get? fs.files (di ++ [n]) with
    | none =>
      rw [ht] at h
      obtain ⟨h1, h2, h3, rfl⟩ := hfail .os (by simpa using h)
      refine ⟨h1, h2, h3, fun e => (by cases e), fun hh => ?_⟩
      obtain ⟨t, u, h4, _⟩ := hh n (by simp)
      rw [ht] at h4; cases h4
    | some t =>
      rw [ht] at h
      by_cases hw : dout ++ [subSuffix suffix n] ∈ fs.dirs
      · rw [if_pos hw] at h
        obtain ⟨h1, h2, h3, rfl⟩ := hfail .os (by simpa using h)
        refine ⟨h1, h2, h3, fun e => (by cases e), fun hh => ?_⟩
        obtain ⟨_, _, _, _, h4⟩ := hh n (by simp)
        exact absurd hw h4
      · rw [if_neg hw] at h
        have hne : ¬ some (di ++ [n]) = some (dout ++ [subSuffix suffix n]) := fun e => hsep n hn n hn (Option.some.inj e)
        simp only [if_neg hne] at h
        cases hu : imp t with
        | error e =>
          rw [hu] at h
          cases h
          refine ⟨rfl, rfl, fun p hp => ?_, fun e => (by cases e), fun hh => ?_⟩
          · rw [get_put, if_neg (fun e => hp n (by simp) e.symm)]
          · obtain ⟨t', u, h4, h5, _⟩ := hh n (by simp)
            rw [ht] at h4; cases h4
            rw [hu] at h5; cases h5
        | ok u =>
          rw [hu] at h
          simp only at h
          obtain ⟨g1, g2, g3, g4, g5⟩ := ih (fs.put (dout ++ [subSuffix suffix n]) u) (fun m hm => hall m (by simp [hm])) hname hsep hinj
            ((resolve_congr (fs := fs) rfl rfl _).trans hi) hdi ((resolve_congr (fs := fs) rfl rfl _).trans ho) hdo r fs' h
          have hkeep : ∀ m ∈ all, Dict.get? (fs.put (dout ++ [subSuffix suffix n]) u).files (di ++ [m]) = Dict.get? fs.files (di ++ [m]) := by
            intro m hm
            rw [get_put, if_neg (fun e => hsep m hm n hn e.symm)]
          refine ⟨g1, g2, fun p hp => ?_, fun hr m hm => ?_, fun hh => ?_⟩
          · rw [g3 p fun m hm => hp m (by simp [hm]), get_put, if_neg (fun e => hp n (by simp) e.symm)]
          · by_cases hmn : m ∈ ns
            · obtain ⟨t', u', h1, h2, h3, h4⟩ := g4 hr m hmn
              exact ⟨t', u', by rw [← hkeep m (hall m hm)]; exact h1, h2, h3, h4⟩
            · rcases List.mem_cons.1 hm with rfl | hm
              · refine ⟨t, u, ht, hu, hw, ?_⟩
                rw [g3 _ fun k hk e => hmn (hinj m hn k (hall k (by simp [hk])) e ▸ hk), outOf, get_put, if_pos rfl]
              · exact absurd hm hmn
          · refine g5 fun m hm => ?_
            obtain ⟨t', u', h1, h2, h3⟩ := hh m (by simp [hm])
            exact ⟨t', u', by rw [hkeep m (hall m (by simp [hm]))]; exact h1, h2, h3⟩

end

/-- the file system with the output directory, made if needed -/
def prepared (fs : FS) (d : Path) : FS := if d ∈ fs.dirs then fs else { fs with dirs := d :: fs.dirs }

theorem prepared_files (fs : FS) (d : Path) : (prepared fs d).files = fs.files := by unfold prepared; split <;> rfl
theorem prepared_cwd (fs : FS) (d : Path) : (prepared fs d).cwd = fs.cwd := by unfold prepared; split <;> rfl
theorem mem_prepared {fs : FS} {d p : Path} : p ∈ (prepared fs d).dirs ↔ p = d ∨ p ∈ fs.dirs := by
  unfold prepared
  split
  · next h => exact ⟨.inr, fun e => e.elim (fun e => e ▸ h) id⟩
  · simp

/-- with more directories, what could be followed leads to the same place -/
theorem foldl_mono {fs fs' : FS} (h : ∀ d ∈ fs.dirs, d ∈ fs'.dirs) : ∀ (ws : List Str) (p : Option Path) (q : Path),
    ws.foldl (step fs) p = some q → ws.foldl (step fs') p = some q := by
  intro ws
  induction ws with
  | nil => intro p q h; exact h
  | cons w ws ih =>
    intro p q hq
    simp only [List.foldl_cons] at hq ⊢
    have hne : ∃ d, step fs p w = some d := by
      cases e : step fs p w with
      | some d => exact ⟨d, rfl⟩
      | none =>
        rw [e] at hq
        have : ∀ ws : List Str, ws.foldl (step fs) none = none := by
          intro ws
          induction ws with
          | nil => rfl
          | cons w ws ih => exact ih
        rw [this] at hq; cases hq
    obtain ⟨d, hd⟩ := hne
    obtain ⟨d', rfl, hd'⟩ := step_some hd
    have : step fs' (some d') w = step fs (some d') w := by
      show (if d' ∈ fs'.dirs then _ else _) = if d' ∈ fs.dirs then _ else _
      rw [if_pos hd', if_pos (h _ hd')]
    rw [this]
    exact ih _ _ hq

theorem resolve_mono {fs fs' : FS} (h : ∀ d ∈ fs.dirs, d ∈ fs'.dirs) (hc : fs'.cwd = fs.cwd) {s : Str} {p : Path}
    (hr : resolve fs s = some p) : resolve fs' s = some p := by
  unfold resolve at hr ⊢
  rw [hc]
  split at hr
  · cases hr
  · next h1 =>
    rw [if_neg h1]
    split at hr
    · next h2 => rw [if_pos h2]; exact foldl_mono h _ _ _ hr
    · next h2 => rw [if_neg h2]; exact foldl_mono h _ _ _ hr

/-! ### C106 -/

/-- what is written for an input whose name is `stem` with the suffix -/
def xmlOf (dout : Path) (stem : Str) : Path := dout ++ [stem ++ lit! ".xml"]

theorem both_suffix {a b n : Str} (ha : a <:+ n) (hb : b <:+ n) : a <:+ b ∨ b <:+ a := by
  rcases Nat.le_total a.length b.length with h | h
  · exact .inl (List.suffix_of_suffix_length_le ha hb h)
  · exact .inr (List.suffix_of_suffix_length_le hb ha h)

/-- **C106** for a directory: into a directory that there is or can be made, and which is another one unless
suffix and `.xml` exclude each other.  Only files called as inputs with `.xml` in place of the suffix are
written; the import succeeds just if everything with the suffix is a file that can be imported (and no
directory is in the way), and then each of these is the import of its own input. -/
theorem C106_directory (imp : Str → Py Str) (suffix inpath outpath : Str) (fs : FS) (hok : fs.OK) (hs : PlainSuffix suffix) (di dout : Path)
    (hi : resolve fs inpath = some di) (hdi : di ∈ fs.dirs) (ho : resolve fs outpath = some dout)
    (hdo : dout ∈ fs.dirs ∨ (dout ≠ [] ∧ dout.dropLast ∈ fs.dirs ∧ Dict.get? fs.files dout = none ∧ ∀ c ∈ dout, Name c))
    (hsep : di ≠ dout ∨ (¬ suffix <:+ lit! ".xml" ∧ ¬ lit! ".xml" <:+ suffix))
    (r : Except FErr Unit) (fs' : FS) (h : odinImport imp suffix inpath outpath fs = (r, fs')) :
    fs'.dirs = (prepared fs dout).dirs ∧
    (∀ p, (∀ stem, Input (prepared fs dout) di suffix (stem ++ suffix) → p ≠ xmlOf dout stem) → Dict.get? fs'.files p = Dict.get? fs.files p) ∧
    (r = .ok () ↔ ∀ stem, Input (prepared fs dout) di suffix (stem ++ suffix) →
      ∃ t u, Dict.get? fs.files (di ++ [stem ++ suffix]) = some t ∧ imp t = .ok u ∧ xmlOf dout stem ∉ (prepared fs dout).dirs) ∧
    (r = .ok () → ∀ stem, Input (prepared fs dout) di suffix (stem ++ suffix) →
      ∃ t u, Dict.get? fs.files (di ++ [stem ++ suffix]) = some t ∧ imp t = .ok u ∧ Dict.get? fs'.files (xmlOf dout stem) = some u) := by
  have hnf : isFile fs inpath = false := by
    rw [isFile, hi, Dict.has_false_iff]
    exact hok.excl _ hdi
  have hid : isDir fs inpath = true := by rw [isDir, hi]; simpa using hdi
  have hof : isFile fs outpath = false := by
    rw [isFile, ho, Dict.has_false_iff]
    rcases hdo with h | h
    · exact hok.excl _ h
    · exact h.2.2.1
  have hstep : odinImport imp suffix inpath outpath fs =
      importAll imp suffix inpath outpath (globNames (prepared fs dout) inpath suffix) (prepared fs dout) := by
    unfold odinImport
    rw [hnf, hid, hof]
    simp only [Bool.false_and, Bool.false_eq_true, if_false, Bool.not_false, Bool.and_self, if_true]
    by_cases hd : dout ∈ fs.dirs
    · have he : exists? fs outpath = true := by rw [exists?, isDir, ho]; simp [hd]
      rw [he, prepared, if_pos hd]
      rfl
    · have he : exists? fs outpath = false := by rw [exists?, hof, isDir, ho]; simp [hd]
      rw [he]
      have hn := hdo.resolve_left hd
      have hw : writable fs outpath = some dout := by
        rw [writable, ho, Option.bind_some, if_pos ⟨hd, hn.1, hn.2.1⟩]
      have hm : mkdir outpath fs = (.ok (), prepared fs dout) := by
        have hf : Dict.has fs.files dout = false := (Dict.has_false_iff _ _).2 hn.2.2.1
        rw [mkdir, hw]
        simp only [hf, Bool.false_eq_true, if_false]
        rw [prepared, if_neg hd]
      have hp : prepareOutdir outpath fs = (.ok (), prepared fs dout) := by rw [prepareOutdir, hm]
      exact bind_ok (m := prepareOutdir outpath) hp
  rw [hstep] at h
  have hi' : resolve (prepared fs dout) inpath = some di := resolve_mono (fun d hd => mem_prepared.2 (.inr hd)) (prepared_cwd _ _) hi
  have ho' : resolve (prepared fs dout) outpath = some dout := resolve_mono (fun d hd => mem_prepared.2 (.inr hd)) (prepared_cwd _ _) ho
  have hdi' : di ∈ (prepared fs dout).dirs := mem_prepared.2 (.inr hdi)
  have hdo' : dout ∈ (prepared fs dout).dirs := mem_prepared.2 (.inl rfl)
  have hmem : ∀ n, n ∈ globNames (prepared fs dout) inpath suffix ↔ Input (prepared fs dout) di suffix n := fun n => mem_globNames hi' hdi'
  have hstem : ∀ n, Input (prepared fs dout) di suffix n → ∃ stem, n = stem ++ suffix ∧ subSuffix suffix n = stem ++ lit! ".xml" := by
    rintro n ⟨_, ⟨stem, rfl⟩, _⟩
    exact ⟨stem, rfl, subSuffix_eq hs stem⟩
  have hname : ∀ n ∈ globNames (prepared fs dout) inpath suffix, Name n ∧ Name (subSuffix suffix n) := by
    intro n hn
    have hI := (hmem n).1 hn
    have h1 : Name n := by
      have hin : ∀ p, (Dict.get? (prepared fs dout).files p ≠ none ∨ p ∈ (prepared fs dout).dirs) → ∀ c ∈ p, Name c := by
        intro p hp
        rw [prepared_files, mem_prepared] at hp
        rcases hp with hp | rfl | hp
        · exact hok.names _ (.inl hp)
        · rcases hdo with h | h
          · exact hok.names _ (.inr h)
          · exact h.2.2.2
        · exact hok.names _ (.inr hp)
      exact hin _ hI.1 n (by simp)
    refine ⟨h1, ?_⟩
    obtain ⟨stem, rfl, e⟩ := hstem n hI
    rw [e]
    have hl : 4 ≤ (stem ++ lit! ".xml").length := by simp
    refine ⟨fun hm => ?_, fun e => ?_, fun e => ?_, fun e => ?_⟩
    · rcases List.mem_append.1 hm with hm | hm
      · exact h1.slash (List.mem_append_left _ hm)
      · exact absurd hm (by decide)
    all_goals rw [e] at hl; simp at hl
  have hout : ∀ n, Input (prepared fs dout) di suffix n → ∀ stem, n = stem ++ suffix → outOf dout suffix n = xmlOf dout stem := by
    rintro n _ stem rfl
    rw [outOf, subSuffix_eq hs, xmlOf]
  have hsep' : ∀ n ∈ globNames (prepared fs dout) inpath suffix, ∀ m ∈ globNames (prepared fs dout) inpath suffix, di ++ [n] ≠ outOf dout suffix m := by
    intro n hn m hm e
    obtain ⟨stem, rfl, e'⟩ := hstem m ((hmem m).1 hm)
    rw [outOf, e'] at e
    obtain ⟨e1, e2⟩ := List.append_inj' e rfl
    rcases hsep with h | ⟨h1, h2⟩
    · exact h e1
    · have e2' : n = stem ++ lit! ".xml" := by simpa using e2
      have hsn := ((hmem n).1 hn).2.1
      have hxn : lit! ".xml" <:+ n := ⟨stem, e2'.symm⟩
      rcases both_suffix hsn hxn with h | h
      · exact h1 h
      · exact h2 h
  have hinj : ∀ n ∈ globNames (prepared fs dout) inpath suffix, ∀ m ∈ globNames (prepared fs dout) inpath suffix,
      outOf dout suffix n = outOf dout suffix m → n = m := by
    intro n hn m hm e
    obtain ⟨s1, rfl, e1⟩ := hstem n ((hmem n).1 hn)
    obtain ⟨s2, rfl, e2⟩ := hstem m ((hmem m).1 hm)
    rw [outOf, outOf, e1, e2] at e
    have e' : s1 ++ lit! ".xml" = s2 ++ lit! ".xml" := by simpa using (List.append_inj' e rfl).2
    rw [(List.append_inj' e' rfl).1]
  obtain ⟨g1, g2, g3, g4, g5⟩ := importAll_spec (imp := imp) _ (prepared fs dout) (fun n hn => hn) hname hsep' hinj hi' hdi' ho' hdo' r fs' h
  rw [prepared_files] at g3 g4 g5
  refine ⟨g1, fun p hp => ?_, ⟨fun hr stem hst => ?_, fun hh => ?_⟩, fun hr stem hst => ?_⟩
  · refine g3 p fun n hn => ?_
    have hI := (hmem n).1 hn
    obtain ⟨stem, e, _⟩ := hstem n hI
    rw [hout n hI stem e]
    exact hp stem (e ▸ hI)
  · obtain ⟨t, u, h1, h2, h3, _⟩ := g4 hr _ ((hmem _).2 hst)
    exact ⟨t, u, h1, h2, by rw [← hout _ hst stem rfl]; exact h3⟩
  · refine g5 fun n hn => ?_
    have hI := (hmem n).1 hn
    obtain ⟨stem, rfl, _⟩ := hstem n hI
    obtain ⟨t, u, h1, h2, h3⟩ := hh stem hI
    exact ⟨t, u, h1, h2, by rw [hout _ hI stem rfl]; exact h3⟩
  · obtain ⟨t, u, h1, h2, _, h4⟩ := g4 hr _ ((hmem _).2 hst)
    exact ⟨t, u, h1, h2, by rw [← hout _ hst stem rfl]; exact h4⟩

/-- **C106** for a file: the file to import is as it was, the other one is the import of it, or, if it cannot
be imported, empty; nothing else changes. -/
theorem C106_file (imp : Str → Py Str) (suffix infile outfile : Str) (fs : FS) (pi po : Path) (t : Str)
    (hi : resolve fs infile = some pi) (ht : Dict.get? fs.files pi = some t) (ho : writable fs outfile = some po) (hne : pi ≠ po) :
    ∃ r fs', odinImport imp suffix infile outfile fs = (r, fs') ∧ fs'.dirs = fs.dirs ∧
      (∀ p, p ≠ po → Dict.get? fs'.files p = Dict.get? fs.files p) ∧
      match imp t with
      | .ok u => r = .ok () ∧ Dict.get? fs'.files po = some u
      | .error e => r = .error (.py e) ∧ Dict.get? fs'.files po = some [] := by
  have hf : isFile fs infile = true := by
    rw [isFile, hi, Dict.has_true_iff]
    exact ⟨t, ht⟩
  have hc : contents fs infile = some t := by rw [contents, hi]; exact ht
  have hd : isDir fs outfile = false := by
    rw [isDir]
    rw [writable] at ho
    cases e : resolve fs outfile with
    | none => rfl
    | some q =>
      rw [e, Option.bind_some] at ho
      split at ho
      · next h => simpa using h.1
      · cases ho
  have hrun : odinImport imp suffix infile outfile fs = importFile imp infile outfile fs := by
    unfold odinImport
    rw [hf, hd]; rfl
  rw [hrun, importFile_eq, hc, ho, hi]
  have hne' : ¬ some pi = some po := fun e => hne (Option.some.inj e)
  simp only [if_neg hne']
  cases imp t with
  | ok u => exact ⟨_, _, rfl, rfl, fun p hp => (by rw [get_put, if_neg (fun e => hp e.symm)]), rfl, by rw [get_put, if_pos rfl]⟩
  | error e => exact ⟨_, _, rfl, rfl, fun p hp => (by rw [get_put, if_neg (fun e => hp e.symm)]), rfl, by rw [get_put, if_pos rfl]⟩

/-- **C106**: a file into a directory, a directory into a file, or what there is not: the importer says so
and nothing is changed. -/
theorem C106_mismatch (imp : Str → Py Str) (suffix inpath outpath : Str) (fs : FS)
    (h : (isFile fs inpath = true ∧ isDir fs inpath = false ∧ isDir fs outpath = true) ∨
      (isDir fs inpath = true ∧ isFile fs inpath = false ∧ isFile fs outpath = true) ∨ (isFile fs inpath = false ∧ isDir fs inpath = false)) :
    odinImport imp suffix inpath outpath fs = (.error (.py .xigtImportError), fs) := by
  unfold odinImport
  rcases h with ⟨h1, h2, h3⟩ | ⟨h1, h2, h3⟩ | ⟨h1, h2⟩ <;> simp [*]

/-- **C106** refuted: if the file to import and the one to write are the same (also by different names), it
is emptied before it is read: all that was in it is lost, and no error is reported where nothing can be
imported. -/
theorem C106_refuted (imp : Str → Py Str) (u : Str) (himp : imp [] = .ok u) (suffix infile outfile : Str) (fs : FS) (p : Path) (t : Str)
    (hi : resolve fs infile = some p) (ht : Dict.get? fs.files p = some t) (ho : writable fs outfile = some p) :
    ∃ fs', odinImport imp suffix infile outfile fs = (.ok (), fs') ∧ Dict.get? fs'.files p = some u := by
  have hf : isFile fs infile = true := by
    rw [isFile, hi, Dict.has_true_iff]
    exact ⟨t, ht⟩
  have hc : contents fs infile = some t := by rw [contents, hi]; exact ht
  have hd : isDir fs outfile = false := by
    rw [isDir]
    rw [writable] at ho
    cases e : resolve fs outfile with
    | none => rfl
    | some q =>
      rw [e, Option.bind_some] at ho
      split at ho
      · next h => simpa using h.1
      · cases ho
  have hrun : odinImport imp suffix infile outfile fs = importFile imp infile outfile fs := by
    unfold odinImport
    rw [hf, hd]; rfl
  rw [hrun, importFile_eq, hc, ho, hi]
  simp only [if_true, himp]
  exact ⟨_, rfl, by rw [get_put, if_pos rfl]⟩

/-! ### Examples -/

section

/-- a directory with two files to import, another file, and a hidden one -/
def sample : FS where
  files := [([lit! "in", lit! "a.txt"], lit! "one"), ([lit! "in", lit! "b.txt"], lit! "two"), ([lit! "in", lit! "notes"], lit! "three"),
    ([lit! "in", lit! ".c.txt"], lit! "four"), ([lit! "out", lit! "a.xml"], lit! "old"), ([lit! "in", lit! "d.xml"], lit! "five")]
  dirs := [[], [lit! "in"], [lit! "out"]]
  cwd := [lit! "out"]

theorem sample_names : ∀ p, (Dict.get? sample.files p ≠ none ∨ p ∈ sample.dirs) → ∀ c ∈ p, Name c := by
  have hb : ∀ c : Str, (('/' ∉ c) ∧ c ≠ [] ∧ c ≠ ['.'] ∧ c ≠ ['.', '.']) → Name c := fun c h => ⟨h.1, h.2.1, h.2.2.1, h.2.2.2⟩
  have h1 : ∀ p ∈ sample.files.map Prod.fst, ∀ c ∈ p, (('/' ∉ c) ∧ c ≠ [] ∧ c ≠ ['.'] ∧ c ≠ ['.', '.']) := by decide
  have h2 : ∀ p ∈ sample.dirs, ∀ c ∈ p, (('/' ∉ c) ∧ c ≠ [] ∧ c ≠ ['.'] ∧ c ≠ ['.', '.']) := by decide
  rintro p (hp | hp) c hc
  · refine hb c (h1 p ?_ c hc)
    rw [ne_eq, Dict.get?_eq_none_iff, Classical.not_not] at hp
    exact hp
  · exact hb c (h2 p hp c hc)

theorem sample_ok : sample.OK := by
  refine ⟨sample_names, by decide, fun p n h => ?_⟩
  have h1 : ∀ q ∈ sample.files.map Prod.fst, q.dropLast ∈ sample.dirs := by decide
  have h2 : ∀ q ∈ sample.dirs, q ≠ [] → q.dropLast ∈ sample.dirs := by decide
  have hd : (p ++ [n]).dropLast = p := by simp
  rw [← hd]
  rcases h with h | h
  · rw [ne_eq, Dict.get?_eq_none_iff, Classical.not_not] at h
    exact h1 _ h
  · exact h2 _ h (by simp)

theorem plain_txt : PlainSuffix (lit! ".txt") := by
  constructor <;> decide

/-- shouting -/
def shout (s : Str) : Py Str := .ok (s ++ ['!'])

/-- the conditions of `C106_directory` hold of it, into the directory there is, into a new one, and into
the directory of the inputs -/
example (r : Except FErr Unit) (fs' : FS) (h : odinImport shout (lit! ".txt") (lit! "/in") (lit! "../out/") sample = (r, fs')) :
    fs'.dirs = (prepared sample [lit! "out"]).dirs :=
  (C106_directory shout _ _ _ sample sample_ok plain_txt [lit! "in"] [lit! "out"] (by decide) (by decide) (by decide)
    (.inl (by decide)) (.inl (by decide)) r fs' h).1
example (r : Except FErr Unit) (fs' : FS) (h : odinImport shout (lit! ".txt") (lit! "/in") (lit! "new") sample = (r, fs')) :
    fs'.dirs = (prepared sample [lit! "out", lit! "new"]).dirs :=
  (C106_directory shout _ _ _ sample sample_ok plain_txt [lit! "in"] [lit! "out", lit! "new"] (by decide) (by decide) (by decide)
    (.inr ⟨by decide, by decide, by decide, fun c hc => (by
      have : c = lit! "out" ∨ c = lit! "new" := by simpa using hc
      rcases this with rfl | rfl <;> constructor <;> decide)⟩) (.inl (by decide)) r fs' h).1
example (r : Except FErr Unit) (fs' : FS) (h : odinImport shout (lit! ".txt") (lit! "/in") (lit! "../in") sample = (r, fs')) :
    fs'.dirs = (prepared sample [lit! "in"]).dirs :=
  (C106_directory shout _ _ _ sample sample_ok plain_txt [lit! "in"] [lit! "in"] (by decide) (by decide) (by decide)
    (.inl (by decide)) (.inr (by decide)) r fs' h).1

/-- and what comes of it -/
example : (odinImport shout (lit! ".txt") (lit! "/in") (lit! "../out/") sample).2.files =
    [([lit! "in", lit! "a.txt"], lit! "one"), ([lit! "in", lit! "b.txt"], lit! "two"), ([lit! "in", lit! "notes"], lit! "three"),
    ([lit! "in", lit! ".c.txt"], lit! "four"), ([lit! "out", lit! "a.xml"], lit! "one!"), ([lit! "in", lit! "d.xml"], lit! "five"),
    ([lit! "out", lit! "b.xml"], lit! "two!")] := by decide +kernel

/-- **C106** refuted for directories: with the suffix `.xml` and the same directory the inputs are lost. -/
theorem C106_refuted_directory : (odinImport shout (lit! ".xml") (lit! "/in") (lit! "../in") sample).1 = .ok () ∧
    Dict.get? (odinImport shout (lit! ".xml") (lit! "/in") (lit! "../in") sample).2.files [lit! "in", lit! "d.xml"] = some (lit! "!") := by
  decide +kernel

end

end Xigt.Files
