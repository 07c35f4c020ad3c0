import Verif.Scripts.CommandScripts
/-
The command line as a whole (C152, C153): what each script receives from `xigt COMMAND …`, the examples of the scripts' own help
texts, and command lines that look right but are not taken.
-/

set_option linter.unusedSectionVars false

namespace Xigt.Cmd

section
variable [Uni]

/-- C152: a command whose first argument is not `--` has its arguments parsed by its own parser -/
theorem C152_script (s : Script) (P : Parser) (l : List Str) (hP : s.parser = some P) (hl : l.head? ≠ some (lit! "--")) :
    xigt (s.word :: l) = parseArgs P l >>= fun ns => .ok (s, some ns) := by
  have h : dispatch (s.word :: l) = .ok (s, l) := (C152_iff _ _ _).2 (.inl ⟨rfl, hl⟩)
  unfold xigt
  rw [h]
  simp only [bind, Except.bind, hP]
  rfl

/-- C152: `xigt process` parses nothing (and does nothing, xigt_process.py:5-6) -/
theorem C152_process (l : List Str) (hl : l.head? ≠ some (lit! "--")) : xigt ((Script.process).word :: l) = .ok (.process, none) := by
  have h : dispatch ((Script.process).word :: l) = .ok (.process, l) := (C152_iff _ _ _).2 (.inl ⟨rfl, hl⟩)
  unfold xigt
  rw [h]
  rfl

/-- C152: a first word that names no script, and is no option, ends the program with its usage, whatever follows -/
theorem C152_unknown (w : Str) (l : List Str) (s : Script) (l' : List Str) (hw : w ≠ lit! "--") (hn : ∀ s : Script, w ≠ s.word) :
    dispatch (w :: l) ≠ .ok (s, l') := by
  intro h
  rcases (C152_iff _ _ _).1 h with ⟨h, -⟩ | h | h <;> cases h
  · exact hn _ rfl
  · exact hn _ rfl
  · exact hw rfl

end

section
attribute [local instance] asciiUni

/-! examples: C152 -/

example : dispatch [lit! "sort", lit! "--igt-key=@id", lit! "-h", lit! "in.xml"] = .ok (.sort, [lit! "--igt-key=@id", lit! "-h", lit! "in.xml"]) :=
  (C152_iff _ _ _).2 (.inl ⟨rfl, by decide⟩)
example : dispatch [lit! "-h", lit! "sort"] = .error .help := by decide +kernel
example : dispatch [lit! "sorts", lit! "in.xml"] = .error .usage := by decide +kernel
example : dispatch [] = .error .usage := by decide +kernel

/-! examples: the help texts of the scripts (xigt_sort.py:52, xigt_partition.py:65, xigt_query.py:157-159) -/

/-- `xigt sort --igt-key='@doc-id' --igt-key='@id' in.xml` -/
example : ∃ ns, xigt [lit! "sort", lit! "--igt-key=@doc-id", lit! "--igt-key=@id", lit! "in.xml"] = .ok (.sort, some ns) ∧
    Dict.get? ns (lit! "infile") = some (.str (lit! "in.xml")) ∧ Dict.get? ns (lit! "igt_key") = some (.list [lit! "@doc-id", lit! "@id"]) := by
  have ho : Options sortOptions [⟨lit! "--igt-key", [lit! "@doc-id"], .eq⟩, ⟨lit! "--igt-key", [lit! "@id"], .eq⟩] := by
    intro g hg
    simp only [List.mem_cons, List.not_mem_nil, or_false] at hg
    rcases hg with rfl | rfl <;> exact ⟨by decide, rfl⟩
  obtain ⟨ns, h1, h2, -, -, h3, -⟩ := ((C153_sort _ [] ho (by intro g hg; cases hg) (lit! "in.xml")).1 (by decide)).2 (by decide)
  refine ⟨ns, ?_, h2, h3⟩
  rw [show lit! "sort" = (Script.sort).word from rfl, C152_script .sort sortParser _ rfl (by decide)]
  have e : parseArgs sortParser [lit! "--igt-key=@doc-id", lit! "--igt-key=@id", lit! "in.xml"] = .ok ns := h1
  rw [e]
  rfl

/-- `xigt partition --key-path='@doc-id' by-doc-id a.xml b.xml` -/
example : PartitionReceives (parseArgs partitionParser [lit! "--key-path=@doc-id", lit! "by-doc-id", lit! "a.xml", lit! "b.xml"])
    [⟨lit! "--key-path", [lit! "@doc-id"], .eq⟩] (lit! "by-doc-id") [lit! "a.xml", lit! "b.xml"] := by
  refine (C153_partition [⟨lit! "--key-path", [lit! "@doc-id"], .eq⟩] [] ?_ (by intro g hg; cases hg) (lit! "by-doc-id") [lit! "a.xml", lit! "b.xml"]).1 (by decide)
  intro g hg
  rw [List.mem_singleton.1 hg]
  exact ⟨by decide, rfl⟩

/-- `xigt query --tally 'igt' './/item[value()="dog"]' --description "IGTs with 'dog' tokens" x.xml`, `-vv` added after the file -/
example : QueryReceives (parseArgs queryParser [lit! "--tally", lit! "igt", lit! ".//item[value()=\"dog\"]", lit! "--description", lit! "IGTs with 'dog' tokens",
      lit! "x.xml", lit! "-vv"])
    [⟨lit! "--tally", [lit! "igt", lit! ".//item[value()=\"dog\"]"], .apart⟩, ⟨lit! "--description", [lit! "IGTs with 'dog' tokens"], .apart⟩, ⟨lit! "-v", [], .more 1⟩]
    [lit! "x.xml"] := by
  refine (C153_query [⟨lit! "--tally", [lit! "igt", lit! ".//item[value()=\"dog\"]"], .apart⟩, ⟨lit! "--description", [lit! "IGTs with 'dog' tokens"], .apart⟩]
    [⟨lit! "-v", [], .more 1⟩] ?_ ?_ (lit! "x.xml") []).1 (by decide)
  · intro g hg
    simp only [List.mem_cons, List.not_mem_nil, or_false] at hg
    rcases hg with rfl | rfl
    · exact ⟨by decide, by simp [Given.Well]⟩
    · exact ⟨by decide, by simp [Given.Well]⟩
  · intro g hg
    rw [List.mem_singleton.1 hg]
    exact ⟨by decide, by simp [Given.Well]⟩

/-- what it comes to: one tally with a description, and verbosity 4 -/
example : (said1 [⟨lit! "--tally", [lit! "igt", lit! "q"], .apart⟩, ⟨lit! "--description", [lit! "d"], .apart⟩, ⟨lit! "-v", [], .more 1⟩]).filterMap asked =
      [.act (.tally (lit! "igt") (lit! "q")), .description (lit! "d")] ∧
    (argsOf [lit! "-v", lit! "--verbose"] [⟨lit! "--tally", [lit! "igt", lit! "q"], .apart⟩, ⟨lit! "-v", [], .more 1⟩]).length = 2 := ⟨rfl, rfl⟩

/-- `xigt import -i a.txt -o a.xml`: the format is toolbox; without `-o`, or with a format that there is not, nothing happens -/
example : FormatReceives [lit! "toolbox", lit! "odin"] (parseArgs importParser [lit! "-i", lit! "a.txt", lit! "-oa.xml"])
    [⟨lit! "-i", [lit! "a.txt"], .apart⟩, ⟨lit! "-o", [lit! "a.xml"], .glued⟩] := by
  refine (C153_formats [lit! "toolbox", lit! "odin"] [⟨lit! "-i", [lit! "a.txt"], .apart⟩, ⟨lit! "-o", [lit! "a.xml"], .glued⟩] ?_).1
    ⟨by decide, by decide, fun x hx => by cases hx⟩
  intro g hg
  simp only [List.mem_cons, List.not_mem_nil, or_false] at hg
  rcases hg with rfl | rfl
  · exact ⟨by decide, by simp [Given.Well]⟩
  · exact ⟨by decide, by simp [Given.Well]⟩

example : parseArgs importParser [lit! "-i", lit! "a.txt"] = .error .usage := by decide +kernel
example : parseArgs exportParser [lit! "-i", lit! "a.xml", lit! "-o", lit! "a", lit! "-f", lit! "odin"] = .error .usage := by decide +kernel

/-- `xigt validate -vq --color a.xml b.xml` is written out as `-v -q`; what follows `-q` counts from 0 -/
example : ValidateReceives (parseArgs validateParser [lit! "-v", lit! "-q", lit! "a.xml", lit! "b.xml", lit! "-v"])
    [⟨lit! "-v", [], .apart⟩, ⟨lit! "-q", [], .apart⟩, ⟨lit! "-v", [], .apart⟩] [lit! "a.xml", lit! "b.xml"] := by
  refine (C153_validate [⟨lit! "-v", [], .apart⟩, ⟨lit! "-q", [], .apart⟩] [⟨lit! "-v", [], .apart⟩] ?_ ?_ (lit! "a.xml") [lit! "b.xml"]).1 (by decide)
  · intro g hg
    simp only [List.mem_cons, List.not_mem_nil, or_false] at hg
    rcases hg with rfl | rfl
    · exact ⟨by decide, by simp [Given.Well]⟩
    · exact ⟨by decide, by simp [Given.Well]⟩
  · intro g hg
    rw [List.mem_singleton.1 hg]
    exact ⟨by decide, by simp [Given.Well]⟩

/-! ### what is not taken -/

/-- the help of `xigt partition` says that all arguments may follow one another; but the files must stand with the directory:
after an option in between, `infiles` has been taken to be empty already -/
theorem C153_partition_refuted : ¬ ∀ (outdir keyPath f : Str), outdir.head? ≠ some '-' → keyPath.head? ≠ some '-' → f.head? ≠ some '-' →
    ∃ ns, parseArgs partitionParser [outdir, lit! "--key-path", keyPath, f] = .ok ns := by
  intro h
  obtain ⟨ns, h1⟩ := h (lit! "out") (lit! "@doc-id") (lit! "a.xml") (by decide) (by decide) (by decide)
  have h2 : parseArgs partitionParser [lit! "out", lit! "--key-path", lit! "@doc-id", lit! "a.xml"] = .error .usage := by decide +kernel
  rw [h2] at h1
  cases h1

/-- files on both sides of an option -/
theorem C153_query_refuted : ¬ ∀ (f q g : Str), f.head? ≠ some '-' → q.head? ≠ some '-' → g.head? ≠ some '-' →
    ∃ ns, parseArgs queryParser [f, lit! "--find", q, g] = .ok ns := by
  intro h
  obtain ⟨ns, h1⟩ := h (lit! "a.xml") (lit! "igt") (lit! "b.xml") (by decide) (by decide) (by decide)
  have h2 : parseArgs queryParser [lit! "a.xml", lit! "--find", lit! "igt", lit! "b.xml"] = .error .usage := by decide +kernel
  rw [h2] at h1
  cases h1

/-- the default key of a partition, `---`, cannot be given as it stands: only `--default-key=---` works -/
theorem C153_default_key : parseArgs partitionParser [lit! "--default-key", lit! "---", lit! "out"] = .error .usage ∧
    ∃ ns, parseArgs partitionParser [lit! "--default-key=---", lit! "out"] = .ok ns ∧ Dict.get? ns (lit! "default_key") = some (.str (lit! "---")) := by
  refine ⟨by decide +kernel, _, rfl, by decide +kernel⟩

/-- a file called `-x.xml` can be named after `--` if the script is called directly, but `xigt sort -- -x.xml` loses the `--` -/
theorem C152_dashes_refuted : ¬ ∀ (s : Script) (l : List Str), dispatch (s.word :: l) = .ok (s, l) := by
  intro h
  have h1 := h .sort [lit! "--", lit! "-x.xml"]
  have h2 : dispatch [lit! "sort", lit! "--", lit! "-x.xml"] = .ok (.sort, [lit! "-x.xml"]) := (C152_iff _ _ _).2 (.inr (.inl rfl))
  rw [show (Script.sort).word = lit! "sort" from rfl, h2] at h1
  exact absurd h1 (by decide)

example : (∃ ns, parseArgs sortParser [lit! "--", lit! "-x.xml"] = .ok ns) ∧ xigt [lit! "sort", lit! "--", lit! "-x.xml"] = .error .usage := by
  refine ⟨⟨_, rfl⟩, by decide +kernel⟩

/-- files that are called `--`: of the files of a partition, the first that is called so is lost -/
theorem C153_partition_dashes_refuted : ¬ ∀ (outdir : Str) (infiles : List Str),
    PartitionReceives (parseArgs partitionParser (lit! "--" :: outdir :: infiles)) [] outdir infiles := by
  intro h
  obtain ⟨ns, h1, -, h2, -⟩ := h (lit! "out") [lit! "--", lit! "a.xml"]
  have h3 : (parseArgs partitionParser [lit! "--", lit! "out", lit! "--", lit! "a.xml"]).toOption.bind (Dict.get? · (lit! "infiles")) = some (.list [lit! "a.xml"]) := by
    decide +kernel
  rw [h1] at h3
  have h4 := h2.symm.trans h3
  cases h4

end
end Xigt.Cmd
