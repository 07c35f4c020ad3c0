import Verif.Files.Sort
import Verif.Export.LatexDoc
import Verif.Export.LatexExamples
/-
C112: `xigt export -f latex` on files, and C111 refuted.
-/
set_option linter.unusedSectionVars false

namespace Xigt.Files

section
variable [Uni] [XmlLex]

/-- latex.py:43-45, 66-70: the IGTs are exported one after the other, as they are read; `x` may be an exception of the generator -/
def exportAll (cfg : Ltx.Cfg) (fuel : Nat) (p : Path) : List (Py Obj) → Act Unit
  | [] => pure ()
  | x :: xs => do
    let igt ← lift x
    let b ← lift (Ltx.exportIgt cfg fuel igt)
    put p (b ++ ['\n'])
    put p ['\n']
    exportAll cfg fuel p xs

/-- xigtxml.py:53-55: `load(fh, mode='transient')` -/
def openText (look : Nat → Nat) (s : Str) : Py Opened := do
  let p ← readText s
  openXml look p

/-- xigt_export.py:7-19 `run` and latex.py:39-46 `xigt_export`: the corpus is opened, then the output, then the IGTs are read.
The text is read at once here, and bit by bit in the code: this makes a difference if both files are the same or if the text is not well
formed; then, the output may have been written partly in the code. -/
def exportF (cfg : Ltx.Cfg) (fuel : Nat) (look : Nat → Nat) (infile outpath : Str) : Act Unit := do
  let t ← readFile infile
  let o ← lift (openText look t)
  let p ← openW outpath
  put p (Ltx.header ++ ['\n'])
  exportAll cfg fuel p o.igts
  put p (Ltx.footer ++ ['\n'])

/-- the blocks of a document -/
def blocksText (bs : List Str) : Str := bs.flatMap fun b => b ++ ['\n'] ++ ['\n']

theorem put_some {fs : FS} {p : Path} {cur : Str} (h : Dict.get? fs.files p = some cur) (t : Str) : put p t fs = (.ok (), fs.put p (cur ++ t)) := by
  simp [put, FS.put, h]

theorem get_put_self (fs : FS) (p : Path) (t : Str) : Dict.get? (fs.put p t).files p = some t := by
  rw [get_put, if_pos rfl]

/-- why exporting stops: the generator raises an exception, or the IGT cannot be exported -/
def Stops (cfg : Ltx.Cfg) (fuel : Nat) (y : Py Obj) (e : PyErr) : Prop :=
  y = .error e ∨ ∃ igt, y = .ok igt ∧ Ltx.exportIgt cfg fuel igt = .error e

theorem exportAll_eq (cfg : Ltx.Cfg) (fuel : Nat) (p : Path) : ∀ (xs : List (Py Obj)) (fs : FS) (cur : Str),
    ∃ igts bs, mapPy (Ltx.exportIgt cfg fuel) igts = .ok bs ∧
      ((xs = igts.map .ok ∧ exportAll cfg fuel p xs (fs.put p cur) = (.ok (), fs.put p (cur ++ blocksText bs))) ∨
       ∃ y rest e, xs = igts.map .ok ++ y :: rest ∧ Stops cfg fuel y e ∧
         exportAll cfg fuel p xs (fs.put p cur) = (.error (.py e), fs.put p (cur ++ blocksText bs))) := by
  intro xs
  induction xs with
  | nil =>
    intro fs cur
    exact ⟨[], [], rfl, .inl ⟨rfl, by simp [exportAll, blocksText, pure_run]⟩⟩
  | cons x xs ih =>
    intro fs cur
    cases x with
    | error e =>
      refine ⟨[], [], rfl, .inr ⟨_, xs, e, rfl, .inl rfl, ?_⟩⟩
      simp only [exportAll, blocksText, List.flatMap_nil, List.append_nil]
      rw [bind_lift]
    | ok igt =>
      cases hb : Ltx.exportIgt cfg fuel igt with
      | error e =>
        refine ⟨[], [], rfl, .inr ⟨_, xs, e, rfl, .inr ⟨igt, rfl, hb⟩, ?_⟩⟩
        simp only [exportAll, blocksText, List.flatMap_nil, List.append_nil]
        rw [bind_lift]
        simp only
        rw [bind_lift, hb]
      | ok b =>
        obtain ⟨igts, bs, h1, h2⟩ := ih (fs.put p cur) (cur ++ (b ++ ['\n'] ++ ['\n']))
        have hstep : exportAll cfg fuel p (.ok igt :: xs) (fs.put p cur) = exportAll cfg fuel p xs (fs.put p (cur ++ (b ++ ['\n'] ++ ['\n']))) := by
          simp only [exportAll]
          rw [bind_lift]
          simp only
          rw [bind_lift, hb]
          simp only
          rw [bind_ok (put_some (get_put_self _ _ _) _), bind_ok (put_some (get_put_self _ _ _) _), put_put, put_put]
          simp
        rw [put_put] at h2
        have hbt : ∀ bs, cur ++ (b ++ ['\n'] ++ ['\n']) ++ blocksText bs = cur ++ blocksText (b :: bs) := by
          intro bs; simp [blocksText]
        refine ⟨igt :: igts, b :: bs, ?_, ?_⟩
        · simp only [mapPy, hb, h1, bind, Except.bind]
          rfl
        · rcases h2 with ⟨rfl, h2⟩ | ⟨y, rest, e, rfl, hs, h2⟩
          · left
            refine ⟨rfl, ?_⟩
            rw [hstep, h2, put_put, hbt]
          · right
            refine ⟨y, rest, e, rfl, hs, ?_⟩
            rw [hstep, h2, put_put, hbt]

/-- **C112** (partial: after an exception there is a document without its end).  The input is not changed, nor any file but the output.
Either every IGT of the input is exported and the output is the document with all blocks in order, or there is an exception, and the
output is the beginning of the document, with the blocks of the IGTs before the one that cannot be read or exported. -/
theorem C112_partial (cfg : Ltx.Cfg) (fuel : Nat) (look : Nat → Nat) (infile outpath : Str) (fs : FS) {p : Path} {t : Str} {o : Opened}
    (hin : contents fs infile = some t) (ho : openText look t = .ok o) (hw : writable fs outpath = some p) (hne : resolve fs infile ≠ some p) :
    ∃ r fs' out igts bs, exportF cfg fuel look infile outpath fs = (r, fs') ∧ fs'.dirs = fs.dirs ∧ fs'.cwd = fs.cwd ∧
      contents fs' infile = some t ∧ (∀ q, q ≠ p → Dict.get? fs'.files q = Dict.get? fs.files q) ∧ Dict.get? fs'.files p = some out ∧
      mapPy (Ltx.exportIgt cfg fuel) igts = .ok bs ∧
      ((r = .ok () ∧ o.igts = igts.map .ok ∧ out = Ltx.docText bs) ∨
       ∃ y rest e, r = .error (.py e) ∧ o.igts = igts.map .ok ++ y :: rest ∧ Stops cfg fuel y e ∧ out = Ltx.header ++ ['\n'] ++ blocksText bs) := by
  have h1 : readFile infile fs = (.ok t, fs) := by simp [readFile, hin]
  have h2 : openW outpath fs = (.ok p, fs.put p []) := by simp [openW, hw, FS.put]
  have hgo : exportF cfg fuel look infile outpath fs =
      (do exportAll cfg fuel p o.igts; put p (Ltx.footer ++ ['\n']) : Act Unit) (fs.put p (Ltx.header ++ ['\n'])) := by
    unfold exportF
    rw [bind_ok h1, bind_lift, ho]
    simp only
    rw [bind_ok h2, bind_ok (put_some (get_put_self _ _ _) _), put_put]
    simp
  have same : ∀ out, contents (fs.put p out) infile = some t := by
    intro out
    unfold contents at hin ⊢
    rw [resolve_congr (fs := fs) (fs' := fs.put p out) rfl rfl]
    cases hr : resolve fs infile with
    | none => rw [hr] at hin; cases hin
    | some q =>
      rw [hr] at hin hne
      rw [Option.bind_some] at hin ⊢
      rw [get_put, if_neg (fun e => hne (by rw [e])), hin]
  have other : ∀ out q, q ≠ p → Dict.get? (fs.put p out).files q = Dict.get? fs.files q := by
    intro out q hq
    rw [get_put, if_neg (fun e => hq e.symm)]
  obtain ⟨igts, bs, hbs, h⟩ := exportAll_eq cfg fuel p o.igts fs (Ltx.header ++ ['\n'])
  rcases h with ⟨hi, h⟩ | ⟨y, rest, e, hi, hs, h⟩
  · refine ⟨.ok (), fs.put p (Ltx.docText bs), Ltx.docText bs, igts, bs, ?_, rfl, rfl, same _, other _, get_put_self _ _ _, hbs, .inl ⟨rfl, hi, rfl⟩⟩
    rw [hgo, bind_ok h, put_some (get_put_self _ _ _), put_put]
    rfl
  · refine ⟨.error (.py e), fs.put p (Ltx.header ++ ['\n'] ++ blocksText bs), _, igts, bs, ?_, rfl, rfl, same _, other _, get_put_self _ _ _, hbs,
      .inr ⟨y, rest, e, rfl, hi, hs, rfl⟩⟩
    rw [hgo, bind_error h]

/-- C112 for what cannot be opened: if the input cannot be read or is no corpus, or the output cannot be written, there is an exception and
no file changes -/
theorem C112_unopened (cfg : Ltx.Cfg) (fuel : Nat) (look : Nat → Nat) (infile outpath : Str) (fs : FS)
    (h : (∀ t o, contents fs infile = some t → openText look t ≠ .ok o) ∨ writable fs outpath = none) :
    ∃ e, exportF cfg fuel look infile outpath fs = (.error e, fs) := by
  unfold exportF
  cases hc : contents fs infile with
  | none =>
    have h1 : readFile infile fs = (.error .os, fs) := by simp [readFile, hc]
    exact ⟨_, bind_error h1⟩
  | some t =>
    have h1 : readFile infile fs = (.ok t, fs) := by simp [readFile, hc]
    rw [bind_ok h1, bind_lift]
    cases ho : openText look t with
    | error e => exact ⟨_, rfl⟩
    | ok o =>
      rcases h with h | h
      · exact absurd ho (h t o hc)
      · have h2 : openW outpath fs = (.error .os, fs) := by simp [openW, h]
        exact ⟨_, bind_error h2⟩

theorem drain_ok : ∀ {xs : List (Py Obj)} {ks : List Obj}, drain xs = .ok ks → xs = ks.map .ok := by
  intro xs
  induction xs with
  | nil => intro ks h; cases h; rfl
  | cons x xs ih =>
    intro ks h
    cases x with
    | error e => cases h
    | ok x =>
      simp only [drain, bind, Except.bind] at h
      cases hd : drain xs with
      | error e => rw [hd] at h; cases h
      | ok ys =>
        rw [hd] at h
        cases h
        rw [ih hd]
        rfl

/-- C112 for a file that can be loaded, each of whose IGTs can be exported: the output is the document with a block for each IGT, in order.
If moreover IDs and texts are in one line and there are no substitutions (C111), TeX reads it as a complete document. -/
theorem C112_document (cfg : Ltx.Cfg) (fuel : Nat) (look : Nat → Nat) (infile outpath : Str) (fs : FS) {p : Path} {t s : Str} {x : Obj}
    (hin : contents fs infile = some t) (hx : loadsXml look t = .ok x) (hw : writable fs outpath = some p) (hne : resolve fs infile ≠ some p)
    (hs : Ltx.exportDoc cfg fuel x.kids = .ok s) :
    ∃ fs', exportF cfg fuel look infile outpath fs = (.ok (), fs') ∧ contents fs' infile = some t ∧
      (∀ q, q ≠ p → Dict.get? fs'.files q = Dict.get? fs.files q) ∧ Dict.get? fs'.files p = some s ∧
      (cfg.Plain → (∀ igt ∈ x.kids, Ltx.InLines fuel igt) → ∃ blocks : List (List Ltx.Tok), All2 (Ltx.Exported cfg) x.kids blocks ∧
        Ltx.texReads s = some (Ltx.preamble ++ blocks.flatMap (fun b => b ++ [.par]) ++ Ltx.ending)) := by
  simp only [loadsXml, loadXml, bind, Except.bind] at hx
  split at hx
  · cases hx
  rename_i e he
  split at hx
  · cases hx
  rename_i o ho
  split at hx
  · cases hx
  rename_i ks hks
  obtain ⟨hxe, _⟩ := construct_inv' hx
  have hk : x.kids = ks := by rw [hxe]; rfl
  rw [hk] at hs ⊢
  have hop : openText look t = .ok o := by simp only [openText, he, bind, Except.bind, ho]
  obtain ⟨r, fs', out, igts, bs, h1, _, _, h4, h5, h6, h7, h8⟩ := C112_partial cfg fuel look infile outpath fs hin hop hw hne
  have hbs : ∃ bs, mapPy (Ltx.exportIgt cfg fuel) ks = .ok bs ∧ s = Ltx.docText bs := by
    simp only [Ltx.exportDoc, bind, Except.bind] at hs
    split at hs
    · cases hs
    · rename_i bs hbs
      cases hs
      exact ⟨bs, hbs, rfl⟩
  obtain ⟨bs', hbs', rfl⟩ := hbs
  have inj : ∀ {a b : List Obj}, a.map Except.ok = (b.map Except.ok : List (Py Obj)) → a = b := by
    intro a b h
    exact (List.map_inj_right (fun _ _ e => by cases e; rfl)).1 h
  rcases h8 with ⟨rfl, hi, rfl⟩ | ⟨y, rest, e', _, hi, hst, _⟩
  · rw [drain_ok hks] at hi
    have := inj hi
    subst this
    rw [hbs'] at h7
    cases h7
    exact ⟨fs', h1, h4, h5, h6, fun hp hl => Ltx.C111_partial hp hl hs⟩
  · exfalso
    rw [drain_ok hks] at hi
    have hy : y ∈ (ks.map .ok : List (Py Obj)) := by rw [hi]; simp
    obtain ⟨z, hz, rfl⟩ := List.mem_map.1 hy
    rcases hst with h | ⟨igt, h, hst⟩
    · cases h
    · cases h
      have : ∀ (l : List Obj) (bs : List Str), mapPy (Ltx.exportIgt cfg fuel) l = .ok bs → ∀ z ∈ l, ∃ b, Ltx.exportIgt cfg fuel z = .ok b := by
        intro l
        induction l with
        | nil => intro _ _ z hz; cases hz
        | cons a l ih =>
          intro bs h z hz
          simp only [mapPy, bind, Except.bind] at h
          split at h
          · cases h
          rename_i b hb
          split at h
          · cases h
          rename_i bs1 hb1
          rcases List.mem_cons.1 hz with rfl | hz
          · exact ⟨b, hb⟩
          · exact ih bs1 hb1 z hz
      obtain ⟨b, hb⟩ := this ks bs' hbs' z hz
      rw [hst] at hb
      cases hb

end

section
attribute [local instance] asciiUni asciiXml

/-- without substitutions; all types are in small letters -/
def plainCfg : Ltx.Cfg := { lower := id }

theorem plainCfg_plain : plainCfg.Plain := ⟨fun _ _ => rfl, fun _ _ => rfl⟩

/-- a corpus with one IGT to be shown, and one without tiers -/
def exportable : Str := lit! "<xigt-corpus><igt id=\"i1\"><tier type=\"words\" id=\"w\"><item id=\"w1\">50 %</item><item id=\"w2\">}\\end</item></tier><tier type=\"glosses\" id=\"g\" alignment=\"w\"><item id=\"g1\" alignment=\"w2\">a_b</item></tier><tier id=\"t\" type=\"translations\"><item id=\"t1\">T&amp;T</item></tier></igt><igt id=\"i2\" /></xigt-corpus>"

/-- it is exported -/
example : (match exportF plainCfg 10 id (lit! "in.xml") (lit! "out.tex") (oneFile exportable) with
    | (.ok _, fs') => contents fs' (lit! "out.tex")
    | _ => none) = some (lit! "\n\\documentclass{article}\n\\usepackage{gb4e}\n\\begin{document}\n\n\\begin{exe}\\small\n\\ex\\gll\n{50 \\%} {\\}\\textbackslashend}\\\\\n{} {a\\_b}\\\\\n\\trans T\\&T\n\\end{exe}\n\n%\n% cannot export IGT i2\n%\n\n\n\\end{document}\n\n") := by
  decide +kernel

/-- a text in one line -/
def lineB (s : Str) : Bool := s.all fun c => decide (c = '\t') || (decide (32 ≤ c.toNat) && decide (c.toNat ≠ 127))

theorem line_of_B {s : Str} (h : lineB s = true) : Ltx.Line s := by
  intro c hc
  have := List.all_eq_true.1 h c hc
  simp only [Bool.or_eq_true, Bool.and_eq_true, decide_eq_true_eq] at this
  exact this

def inLinesB (fuel : Nat) (igt : Obj) : Bool :=
  (igt.data.id.all lineB) && igt.kids.all fun t => t.kids.all fun x => match value fuel (some igt) (some t) x with
    | .ok (some v) => lineB v
    | _ => true

theorem inLines_of_B {fuel : Nat} {igt : Obj} (h : inLinesB fuel igt = true) : Ltx.InLines fuel igt := by
  simp only [inLinesB, Bool.and_eq_true] at h
  refine ⟨fun i hi => line_of_B (by rw [hi] at h; exact h.1), fun t ht x hx v hv => ?_⟩
  have := List.all_eq_true.1 (List.all_eq_true.1 h.2 t ht) x hx
  rw [hv] at this
  exact line_of_B this

/-- the conditions of C111 and C112 hold of that -/
example : ∃ x s, loadsXml id exportable = .ok x ∧ Ltx.exportDoc plainCfg 10 x.kids = .ok s ∧ x.kids.length = 2 ∧ (∀ igt ∈ x.kids, Ltx.InLines 10 igt) ∧
    contents (oneFile exportable) (lit! "in.xml") = some exportable ∧ writable (oneFile exportable) (lit! "out.tex") = some [lit! "out.tex"] ∧
    resolve (oneFile exportable) (lit! "in.xml") ≠ some [lit! "out.tex"] := by
  obtain ⟨x, h1, h2⟩ := ok_of_B (r := loadsXml id exportable) (f := fun x => okWith (Ltx.exportDoc plainCfg 10 x.kids) (fun _ => true) &&
    decide (x.kids.length = 2) && x.kids.all (inLinesB 10)) (by decide +kernel)
  simp only [Bool.and_eq_true, decide_eq_true_eq] at h2
  obtain ⟨s, h3, _⟩ := ok_of_B h2.1.1
  exact ⟨x, s, h1, h3, h2.1.2, fun igt hi => inLines_of_B (List.all_eq_true.1 h2.2 igt hi), rfl, by decide +kernel, by decide +kernel⟩

/-- **C111** refuted: an IGT that cannot be shown, whose ID (any string that begins with a letter is accepted) has a line break, gets out of
its comment: what follows the line break is read by TeX, and here it ends the document before the other IGTs -/
theorem C111_refuted : ∃ t x s ts, loadsXml id t = .ok x ∧ Ltx.exportDoc plainCfg 10 x.kids = .ok s ∧
    Ltx.texReads s = some (Ltx.preamble ++ Ltx.command (lit! "end") (lit! "document") ++ ts ++ Ltx.ending) := by
  have h : okWith (loadsXml id (lit! "<xigt-corpus><igt id=\"i1&#10;\\end{document}\" /><igt id=\"i2\" /></xigt-corpus>")) (fun x =>
      okWith (Ltx.exportDoc plainCfg 10 x.kids) fun s => decide (Ltx.texReads s =
        some (Ltx.preamble ++ Ltx.command (lit! "end") (lit! "document") ++ [.eol, .par, .par] ++ Ltx.ending))) = true := by decide +kernel
  obtain ⟨x, h1, h2⟩ := ok_of_B h
  obtain ⟨s, h3, h4⟩ := ok_of_B h2
  exact ⟨_, x, s, _, h1, h3, of_decide_eq_true h4⟩

/-- **C111** refuted for texts: a text with an empty line ends a paragraph inside a group, where TeX stops with an error -/
theorem C111_refuted_par : ∃ t x s a b, loadsXml id t = .ok x ∧ Ltx.exportDoc plainCfg 10 x.kids = .ok s ∧
    Ltx.texReads s = some (a ++ [.left, .chr 'a', .eol, .par, .chr 'b', .right] ++ b) := by
  have h : okWith (loadsXml id (lit! "<xigt-corpus><igt id=\"i1\"><tier type=\"words\" id=\"w\"><item id=\"w1\">a\n\nb</item></tier><tier type=\"glosses\" id=\"g\"><item id=\"g1\" alignment=\"w1\">c</item></tier></igt></xigt-corpus>")) (fun x =>
      okWith (Ltx.exportDoc plainCfg 10 x.kids) fun s => decide (Ltx.texReads s =
        some ((Ltx.preamble ++ Ltx.command (lit! "begin") (lit! "exe") ++ [.ctl (lit! "small"), .eol, .ctl (lit! "ex"), .ctl (lit! "gll"), .eol]) ++
          [.left, .chr 'a', .eol, .par, .chr 'b', .right] ++ ([.ctl ['\\'], .eol, .left, .chr 'c', .right, .ctl ['\\'], .eol] ++
          Ltx.command (lit! "end") (lit! "exe") ++ [.eol, .par] ++ Ltx.ending)))) = true := by decide +kernel
  obtain ⟨x, h1, h2⟩ := ok_of_B h
  obtain ⟨s, h3, h4⟩ := ok_of_B h2
  exact ⟨_, x, s, _, _, h1, h3, of_decide_eq_true h4⟩

/-- **C112** refuted: if the second IGT cannot be exported (its tiers have no IDs), there is an exception, but a file has been written with
the beginning of a document: TeX does not find its end -/
theorem C112_refuted : ∃ fs fs' t out ts, fs.OK ∧ contents fs (lit! "in.xml") = some t ∧ (∃ x, loadsXml id t = .ok x) ∧ contents fs (lit! "out.tex") = none ∧
    exportF plainCfg 10 id (lit! "in.xml") (lit! "out.tex") fs = (.error (.py .typeError), fs') ∧ contents fs' (lit! "out.tex") = some out ∧
    Ltx.texReads out = some ts ∧ .ctl (lit! "end") ∉ ts := by
  let doc : Str := lit! "<xigt-corpus><igt id=\"i1\" /><igt id=\"i2\"><tier type=\"words\"><item id=\"w1\">a</item></tier><tier type=\"glosses\"><item id=\"g1\" alignment=\"w1\">c</item></tier></igt></xigt-corpus>"
  have h : (match exportF plainCfg 10 id (lit! "in.xml") (lit! "out.tex") (oneFile doc) with
    | (.error (.py .typeError), fs') => (contents fs' (lit! "out.tex")).any fun out => (Ltx.texReads out).any fun ts => decide (.ctl (lit! "end") ∉ ts)
    | _ => false) = true := by decide +kernel
  obtain ⟨x, hx, _⟩ := ok_of_B (r := loadsXml id doc) (f := fun _ => true) (by decide +kernel)
  split at h
  · rename_i fs' hf
    rw [Option.any_eq_true] at h
    obtain ⟨out, h1, h2⟩ := h
    rw [Option.any_eq_true] at h2
    obtain ⟨ts, h2, h3⟩ := h2
    exact ⟨_, fs', doc, out, ts, oneFile_ok _, rfl, ⟨x, hx⟩, by decide +kernel, hf, h1, h2, of_decide_eq_true h3⟩
  · cases h

end
end Xigt.Files
