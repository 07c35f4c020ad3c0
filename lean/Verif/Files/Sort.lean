import Verif.Files.Partition
import Verif.Scripts.SortTwice
import Verif.Xml.Again
/-
C108: `xigt sort` on files (/repo/xigt/scripts/xigt_sort.py).
-/

set_option linter.unusedSectionVars false

namespace Xigt

section
variable [Uni] [XmlLex]

/-- objects that are read as they were written are so in every order -/
theorem stable_reord : ∀ (n : Nat) (x y : Obj) (scope : Dict Str Str), Stable scope x → Srt.Reord n x y → y.data = x.data ∧ Stable scope y := by
  intro n
  induction n with
  | zero => intro x y scope h hr; cases hr; exact ⟨rfl, h⟩
  | succ n ih =>
    rintro x y scope h ⟨h1, h2, l, h3, h4⟩
    refine ⟨h1, ?_⟩
    obtain ⟨d', md', ks⟩ := y
    cases h with
    | @mk _ sc d md kids hs hc hp hns hd ha ht hn hm hmc hkc hnm c1 c2 c3 c4 hmd hk =>
    simp only [Obj.data, Obj.md, Obj.kids] at h1 h2 h3 h4
    subst h1 h2
    have hks : ∀ z ∈ ks, ∃ w ∈ kids, z.data = w.data ∧ Stable sc z := by
      intro z hz
      obtain ⟨w, hw, hwz⟩ := mem_all2 h4 hz
      obtain ⟨g1, g2⟩ := ih w z sc (hk w (h3.subset hw)) hwz
      exact ⟨w, h3.subset hw, g1, g2⟩
    have hids : (ks.filterMap fun x => x.data.id) = l.filterMap fun x => x.data.id := by
      have hl : ∀ w ∈ l, Stable sc w := fun w hw => hk w (h3.subset hw)
      clear h3 hks hkc hk
      induction h4 with
      | nil => rfl
      | @cons a b as bs h _ ih' =>
        rw [List.filterMap_cons, List.filterMap_cons, (ih a b sc (hl a (by simp)) h).1, ih' fun w hw => hl w (by simp [hw])]
    refine .mk hs hc hp hns hd ha ht hn hm hmc (fun z hz => ?_) hnm c1 c2 c3 ?_ hmd fun z hz => ?_
    · obtain ⟨w, hw, g1, _⟩ := hks z hz
      have := hkc w hw
      rwa [show w.cls = z.cls by rw [Obj.cls, Obj.cls, g1]] at this
    · rw [hids]
      exact ((h3.filterMap _).nodup_iff).2 c4
    · obtain ⟨w, hw, _, g2⟩ := hks z hz
      exact g2

end
end Xigt

namespace Xigt.Files

section
variable [Uni] [XmlLex]

/-! ### Model -/

/-- xigt_sort.py:11-33 `run`: what is printed, and the files; `none` if sorting does not end within `n`
steps (C31) -/
def sortF (c : XP.PCfg) (look : Nat → Nat) (n : Nat) (a : Srt.Args) (inPlace : Bool) (infile : Str) (fs : FS) : Option (Except FErr Str × FS) :=
  match contents fs infile with
  | none => some (.error .os, fs)
  | some s => match loadsXml look s with
    | .error e => some (.error (.py e), fs)
    | .ok xc => (Srt.run c n a xc).map fun r => match r with
      | .error e => (.error (.py e), fs)
      | .ok y =>
        if inPlace then (do dumpF infile y; pure [] : Act Str) fs
        else (do let t ← lift (dumpsXml (some 2) y); pure (t ++ ['\n']) : Act Str) fs

/-! ### C108 -/

/-- **C108** (partial: the file is one that can be read again, for documents as in C109).  Whether or not
there is an exception, only the file that is sorted changes, and it changes only if there is none and
only with `--in-place`; its contents, or else what is printed, are then the sorted corpus, in which the
same objects are in another order. -/
theorem C108_partial (c : XP.PCfg) (look : Nat → Nat) (n : Nat) (a : Srt.Args) (inPlace : Bool) (infile : Str) (fs : FS) (hok : fs.OK)
    (path : Path) (hp : resolve fs infile = some path) (hne : path ≠ []) (s : Str) (hs : Dict.get? fs.files path = some s) :
    (∀ r fs', sortF c look n a inPlace infile fs = some (r, fs') → fs'.dirs = fs.dirs ∧ fs'.cwd = fs.cwd ∧
      (∀ q, q ≠ path → Dict.get? fs'.files q = Dict.get? fs.files q) ∧ ((∃ e, r = .error e) ∨ inPlace = false → fs' = fs) ∧
      ∀ out, r = .ok out → ∃ x y t, loadsXml look s = .ok x ∧ Srt.run c n a x = some (.ok y) ∧ Srt.Reord 3 x y ∧ dumpsXml (some 2) y = .ok t ∧
        out = (if inPlace then [] else t ++ ['\n']) ∧ Dict.get? fs'.files path = some (if inPlace then t else s)) ∧
    (∀ p x y, readText s = .ok p → Layout p → Every Clean p → Dict.get? p.attrs (lit! "type") = none → loadsXml look s = .ok x → Srt.run c n a x = some (.ok y) →
      ∃ t fs', sortF c look n a inPlace infile fs = some (.ok (if inPlace then [] else t ++ ['\n']), fs') ∧ (∀ look', loadsXml look' t = .ok y) ∧
        Dict.get? fs'.files path = some (if inPlace then t else s)) := by
  have hcon : contents fs infile = some s := by rw [contents, hp]; exact hs
  have hw : writable fs infile = some path := by
    rw [writable, hp, Option.bind_some, if_pos]
    refine ⟨fun hd => ?_, hne, ?_⟩
    · have := hok.excl path hd
      rw [hs] at this
      cases this
    · refine hok.closed path.dropLast (path.getLast hne) (.inl ?_)
      rw [List.dropLast_concat_getLast, hs]
      simp
  have hopen : openW infile fs = (.ok path, { fs with files := Dict.set fs.files path [] }) := by rw [openW, hw]
  have hdump : ∀ y, dumpF infile y fs = match dumpsXml (some 2) y with
      | .ok t => (.ok (), { fs with files := Dict.set (Dict.set fs.files path []) path t })
      | .error e => (.error (.py e), fs) := by
    intro y
    rw [dumpF]
    cases hd : dumpsXml (some 2) y with
    | error e => rfl
    | ok t =>
      rw [bind_lift]
      simp only
      rw [bind_ok hopen]
      simp [put, Dict.get?_set]
  have hget : ∀ q t, Dict.get? (Dict.set (Dict.set fs.files path []) path t) q = if path = q then some t else Dict.get? fs.files q := by
    intro q t
    rw [Dict.get?_set, Dict.get?_set]
    by_cases h : path = q <;> simp [h]
  have key : ∀ x y, loadsXml look s = .ok x → Srt.run c n a x = some (.ok y) → sortF c look n a inPlace infile fs = some (match dumpsXml (some 2) y with
      | .error e => (.error (.py e), fs)
      | .ok t => (.ok (if inPlace then [] else t ++ ['\n']), if inPlace then { fs with files := Dict.set (Dict.set fs.files path []) path t } else fs)) := by
    intro x y hx hy
    simp only [sortF, hcon, hx, hy, Option.map_some]
    have hd' := hdump y
    cases inPlace with
    | true =>
      simp only [if_true]
      cases hd : dumpsXml (some 2) y with
      | error e => rw [hd] at hd'; rw [bind_error hd']
      | ok t => rw [hd] at hd'; rw [bind_ok hd']; rfl
    | false =>
      simp only [Bool.false_eq_true, if_false]
      cases hd : dumpsXml (some 2) y with
      | error e => rw [bind_lift]
      | ok t => rw [bind_lift]; rfl
  refine ⟨fun r fs' h => ?_, fun p x y h1 h2 h3 h4 h5 h6 => ?_⟩
  · have same : ∀ {e : FErr}, r = .error e → fs' = fs → fs'.dirs = fs.dirs ∧ fs'.cwd = fs.cwd ∧
        (∀ q, q ≠ path → Dict.get? fs'.files q = Dict.get? fs.files q) ∧ ((∃ e, r = .error e) ∨ inPlace = false → fs' = fs) ∧
        ∀ out, r = .ok out → ∃ x y t, loadsXml look s = .ok x ∧ Srt.run c n a x = some (.ok y) ∧ Srt.Reord 3 x y ∧ dumpsXml (some 2) y = .ok t ∧
          out = (if inPlace then [] else t ++ ['\n']) ∧ Dict.get? fs'.files path = some (if inPlace then t else s) := by
      rintro e rfl rfl
      exact ⟨rfl, rfl, fun _ _ => rfl, fun _ => rfl, by simp⟩
    cases hx : loadsXml look s with
    | error e =>
      simp only [sortF, hcon, hx, Option.some.injEq, Prod.mk.injEq] at h
      rw [hx] at same
      exact same h.1.symm h.2.symm
    | ok x =>
      cases hy : Srt.run c n a x with
      | none => simp [sortF, hcon, hx, hy] at h
      | some ry =>
        cases ry with
        | error e =>
          simp only [sortF, hcon, hx, hy, Option.map_some, Option.some.injEq, Prod.mk.injEq] at h
          rw [hx] at same
          exact same h.1.symm h.2.symm
        | ok y =>
          rw [key x y hx hy] at h
          cases hd : dumpsXml (some 2) y with
          | error e =>
            simp only [hd, Option.some.injEq, Prod.mk.injEq] at h
            rw [hx] at same
            exact same h.1.symm h.2.symm
          | ok t =>
            simp only [hd, Option.some.injEq, Prod.mk.injEq] at h
            obtain ⟨rfl, rfl⟩ := h
            refine ⟨by split <;> rfl, by split <;> rfl, fun q hq => ?_, ?_, fun out ho => ?_⟩
            · split
              · simp [hget, Ne.symm hq]
              · rfl
            · rintro (⟨e, he⟩ | he)
              · cases he
              · simp [he]
            · cases ho
              refine ⟨x, y, t, rfl, hy, Srt.C68_reorders c n a x y hy, hd, rfl, ?_⟩
              split
              · simp [hget]
              · exact hs
  · obtain ⟨g1, g2⟩ := loaded_stable h1 h2 h3 h4 h5
    obtain ⟨r1, r2⟩ := stable_reord 3 x y [] g2 (Srt.C68_reorders c n a x y h6)
    obtain ⟨t, t1, t2⟩ := stable_again (show y.cls = .corpus by rw [Obj.cls, r1]; exact g1) r2 (some 2)
    refine ⟨t, if inPlace then { fs with files := Dict.set (Dict.set fs.files path []) path t } else fs, ?_, t2, ?_⟩
    · rw [key x y h5 h6, t1]
    · split
      · simp [hget]
      · exact hs

/-- **C108**: sorting a file twice in place leaves it as sorting it once does; for documents as in C109, by keys
as in C110 -/
theorem C108_twice (c : XP.PCfg) (look look' : Nat → Nat) (n : Nat) (a : Srt.Args) (infile : Str) (fs : FS) (hok : fs.OK)
    (path : Path) (hp : resolve fs infile = some path) (hne : path ≠ []) (s : Str) (hs : Dict.get? fs.files path = some s)
    (p : PElem) (h1 : readText s = .ok p) (h2 : Layout p) (h3 : Every Clean p) (h4 : Dict.get? p.attrs (lit! "type") = none)
    (hd : a.tierDeps = [] ∨ a.tierKey ≠ []) (k1 : ∀ k ∈ a.igtKey, Srt.OwnKey k) (k2 : ∀ k ∈ a.tierKey, Srt.OwnKey k) (k3 : ∀ k ∈ a.itemKey, Srt.OwnKey k)
    (fs' : FS) (h : sortF c look n a true infile fs = some (.ok [], fs')) :
    ∃ fs'', sortF c look' n a true infile fs' = some (.ok [], fs'') ∧ ∀ q, Dict.get? fs''.files q = Dict.get? fs'.files q := by
  obtain ⟨g1, g2⟩ := C108_partial c look n a true infile fs hok path hp hne s hs
  obtain ⟨d1, d2, d3, _, d5⟩ := g1 _ _ h
  obtain ⟨x, y, t, e1, e2, e3, e4, _, e6⟩ := d5 [] rfl
  obtain ⟨t', fs1, f1, f2, f3⟩ := g2 p x y h1 h2 h3 h4 e1 e2
  rw [h] at f1
  cases f1
  rw [e6] at f3
  simp only [if_true, Option.some.injEq] at f3 e6
  subst f3
  obtain ⟨s1, s2⟩ := loaded_stable h1 h2 h3 h4 e1
  obtain ⟨s3, s4⟩ := stable_reord 3 x y [] s2 e3
  have hyc : y.cls = .corpus := by rw [Obj.cls, s3]; exact s1
  have hrun : Srt.run c n a y = some (.ok y) :=
    Srt.C110_partial c n a x y (stable_spec x [] s2).1 s1 hd k1 k2 k3 e2
  have hp' : resolve fs' infile = some path := by rw [resolve_congr d1 d2]; exact hp
  have hfile : ∀ q, Dict.get? fs'.files q ≠ none → Dict.get? fs.files q ≠ none := by
    intro q hq
    by_cases he : q = path
    · rw [he, hs]; simp
    · rw [← d3 q he]; exact hq
  have hok' : fs'.OK := by
    refine ⟨fun q hq => hok.names q ?_, fun q hq => ?_, fun q m hq => ?_⟩
    · rw [d1] at hq
      exact hq.imp (hfile q) id
    · rw [d1] at hq
      have := hok.excl q hq
      by_cases he : q = path
      · rw [he, hs] at this; cases this
      · rw [d3 q he]; exact this
    · rw [d1] at hq ⊢
      exact hok.closed q m (hq.imp (hfile _) id)
  obtain ⟨g1', _⟩ := C108_partial c look' n a true infile fs' hok' path hp' hne t e6
  -- it does succeed
  have hcon : contents fs' infile = some t := by rw [contents, hp']; exact e6
  have hw : writable fs' infile = some path := by
    rw [writable, hp', Option.bind_some, if_pos]
    refine ⟨fun hd => ?_, hne, ?_⟩
    · have := hok'.excl path hd
      rw [e6] at this
      cases this
    · refine hok'.closed path.dropLast (path.getLast hne) (.inl ?_)
      rw [List.dropLast_concat_getLast, e6]
      simp
  have hopen : openW infile fs' = (.ok path, { fs' with files := Dict.set fs'.files path [] }) := by rw [openW, hw]
  have hsort : ∃ fs'', sortF c look' n a true infile fs' = some (.ok [], fs'') := by
    simp only [sortF, hcon, f2 look', hrun, Option.map_some, if_true]
    have hdump : ∃ fs'', dumpF infile y fs' = (.ok (), fs'') := by
      rw [dumpF, e4, bind_lift]
      simp only
      rw [bind_ok hopen]
      exact ⟨_, rfl⟩
    obtain ⟨fs'', hdump⟩ := hdump
    rw [bind_ok hdump]
    exact ⟨fs'', rfl⟩
  obtain ⟨fs'', hsort⟩ := hsort
  refine ⟨fs'', hsort, fun q => ?_⟩
  obtain ⟨_, _, j3, _, j5⟩ := g1' _ _ hsort
  by_cases he : q = path
  · obtain ⟨x', y', t'', i1, i2, _, i4, _, i6⟩ := j5 [] rfl
    rw [f2 look'] at i1
    cases i1
    rw [hrun] at i2
    cases i2
    rw [e4] at i4
    cases i4
    rw [he, i6, e6]
    rfl
  · exact j3 q he

end

section
attribute [local instance] asciiUni asciiXml

/-- a file -/
def oneFile (s : Str) : FS where
  files := [([lit! "in.xml"], s)]
  dirs := [[]]
  cwd := []

theorem oneFile_ok (s : Str) : (oneFile s).OK := by
  refine ⟨fun p h c hc => ?_, fun p h => ?_, fun p n h => ?_⟩
  · rcases h with h | h
    · rw [ne_eq, Dict.get?_eq_none_iff, Classical.not_not] at h
      have : p = [lit! "in.xml"] := by simpa [oneFile, Dict.keys] using h
      subst this
      have : c = lit! "in.xml" := by simpa using hc
      subst this
      constructor <;> decide
    · have : p = [] := by simpa [oneFile] using h
      subst this; cases hc
  · have : p = [] := by simpa [oneFile] using h
    subst this; rfl
  · rcases h with h | h
    · rw [ne_eq, Dict.get?_eq_none_iff, Classical.not_not] at h
      have h : p ++ [n] = [lit! "in.xml"] := by simpa [oneFile, Dict.keys] using h
      cases p with
      | nil => exact List.mem_singleton.2 rfl
      | cons c p => simp at h
    · simp [oneFile] at h

def unsorted : Str := lit! "<xigt-corpus><igt id=\"i2\" /><igt id=\"i1\"><metadata><meta>m</meta></metadata></igt></xigt-corpus>"

/-- a file is sorted -/
example : (sortF Srt.exCfg id 10 { igtKey := [lit! "@id"] } true (lit! "in.xml") (oneFile unsorted)).map (fun r => (r.1, r.2.files)) =
    some (.ok [], [([lit! "in.xml"], lit! "<xigt-corpus>\n  <igt id=\"i1\">\n    <metadata>\n      <meta>m</meta>\n    </metadata>\n  </igt>\n  <igt id=\"i2\" />\n</xigt-corpus>\n")]) := by
  decide +kernel

/-- the conditions of C108 hold of that -/
example : ∃ p x y, readText unsorted = .ok p ∧ Layout p ∧ Every Clean p ∧ Dict.get? p.attrs (lit! "type") = none ∧ loadsXml id unsorted = .ok x ∧
    Srt.run Srt.exCfg 10 { igtKey := [lit! "@id"] } x = some (.ok y) ∧ resolve (oneFile unsorted) (lit! "in.xml") = some [lit! "in.xml"] := by
  obtain ⟨p, h1, h2⟩ := ok_of_B (r := readText unsorted) (f := fun p => layoutB 0 p && everyB cleanB p && (Dict.get? p.attrs (lit! "type")).isNone) (by decide +kernel)
  obtain ⟨x, g1, g2⟩ := ok_of_B (r := loadsXml id unsorted) (f := fun x => (Srt.run Srt.exCfg 10 { igtKey := [lit! "@id"] } x).any fun r => okWith r fun _ => true) (by decide +kernel)
  simp only [Bool.and_eq_true, Option.isNone_iff_eq_none, Option.any_eq_true] at h2 g2
  obtain ⟨r, g2, g3⟩ := g2
  obtain ⟨y, rfl, _⟩ := ok_of_B g3
  exact ⟨p, x, y, h1, layout_of_B h2.1.1, clean_of_B h2.1.2, h2.2, g1, g2, by decide⟩

/-- **C108** refuted: a file with a default namespace inside a `meta` can be sorted in place without an error,
even without a sort key, and cannot be read afterwards -/
theorem C108_refuted : ∃ fs fs' t, fs.OK ∧ (∃ s x, contents fs (lit! "in.xml") = some s ∧ loadsXml id s = .ok x) ∧
    sortF Srt.exCfg id 10 {} true (lit! "in.xml") fs = some (.ok [], fs') ∧ contents fs' (lit! "in.xml") = some t ∧ ∀ look, loadsXml look t = .error .parseError := by
  have h : (match sortF Srt.exCfg id 10 {} true (lit! "in.xml") (oneFile (lit! "<xigt-corpus><metadata><meta><a xmlns=\"u\"/></meta></metadata></xigt-corpus>")) with
    | some (.ok [], fs') => (contents fs' (lit! "in.xml")).any fun t => failed (readText t) .parseError
    | _ => false) = true := by decide +kernel
  obtain ⟨x, hx, _⟩ := ok_of_B (r := loadsXml id (lit! "<xigt-corpus><metadata><meta><a xmlns=\"u\"/></meta></metadata></xigt-corpus>")) (f := fun _ => true) (by decide +kernel)
  split at h
  · rename_i fs' hf
    rw [Option.any_eq_true] at h
    obtain ⟨t, ht, hr⟩ := h
    refine ⟨_, fs', t, oneFile_ok _, ⟨_, x, rfl, hx⟩, hf, ht, fun look => ?_⟩
    rw [loadsXml, failed_of_B hr]
    rfl
  · cases h

end
end Xigt.Files
