import Verif.Scripts.CommandProps
import Verif.Scripts.QueryMain
import Verif.Scripts.ValidateMain
/-
C153 for the other scripts.
-/

set_option linter.unusedSectionVars false

namespace Xigt.Cmd

theorem options_append {os : List (Str × Nat)} {xs ys : List Given} (hx : Options os xs) (hy : Options os ys) : Options os (xs ++ ys) := by
  intro g hg
  rcases List.mem_append.1 hg with h | h
  · exact hx g h
  · exact hy g h

theorem clash_none {P : Parser} (h : P.groups = []) (seen i) : clash P seen i = false := by simp [clash, h]

theorem erase_plain {l : List Str} (h : ∀ a ∈ l, a.head? ≠ some '-') : l.erase (lit! "--") = l := by
  apply List.erase_of_not_mem
  intro hm
  exact h _ hm rfl

theorem texts_args (l : List Str) : (l.map Tok.arg).map Tok.text = l := by simp [Tok.text, Function.comp_def]

/-! ### `xigt partition` -/

/-- the options of `xigt partition` with the numbers of their arguments (spec) -/
def partitionOptions : List (Str × Nat) := [(lit! "-v", 0), (lit! "--verbose", 0), (lit! "--key-path", 1), (lit! "--default-key", 1)]

theorem partition_tidy : partitionParser.Tidy := tidy_of_B (by decide)

theorem partition_known : ∀ o ∈ partitionOptions, ∃ i, partitionParser.find o.1 = some i ∧ partitionParser.number i = o.2 := by
  intro o ho
  simp [partitionOptions] at ho
  rcases ho with rfl | rfl | rfl | rfl <;> exact ⟨_, rfl, rfl⟩

theorem partition_cases {x : Str × List Str} (h : (x.1, x.2.length) ∈ partitionOptions) :
    x = (lit! "-v", []) ∨ x = (lit! "--verbose", []) ∨ (∃ v, x = (lit! "--key-path", [v])) ∨ ∃ v, x = (lit! "--default-key", [v]) := by
  obtain ⟨n, l⟩ := x
  simp only [partitionOptions, List.mem_cons, Prod.mk.injEq, List.not_mem_nil, or_false] at h
  rcases h with ⟨rfl, h⟩ | ⟨rfl, h⟩ | ⟨rfl, h⟩ | ⟨rfl, h⟩
  · simp at h; simp [h]
  · simp at h; simp [h]
  all_goals
    obtain ⟨v, rfl⟩ := length_one h
    simp

theorem partition_eff {x : Str × List Str} (h : (x.1, x.2.length) ∈ partitionOptions) :
    Fine partitionParser (idx partitionParser x) ∧ (∀ old, eff partitionParser (lit! "outdir") old (idx partitionParser x) = old) ∧
    (∀ old, eff partitionParser (lit! "infiles") old (idx partitionParser x) = old) ∧
    (∀ old, eff partitionParser (lit! "verbosity") old (idx partitionParser x) = if x.1 ∈ [lit! "-v", lit! "--verbose"] then stepCount old x.2 else old) ∧
    (∀ old, eff partitionParser (lit! "key_path") old (idx partitionParser x) = if x.1 ∈ [lit! "--key-path"] then stepLast old x.2 else old) ∧
    (∀ old, eff partitionParser (lit! "default_key") old (idx partitionParser x) = if x.1 ∈ [lit! "--default-key"] then stepLast old x.2 else old) := by
  rcases partition_cases h with rfl | rfl | ⟨v, rfl⟩ | ⟨v, rfl⟩
  all_goals refine ⟨⟨_, _, rfl, rfl, by decide⟩, ?_, ?_, ?_, ?_, ?_⟩ <;> intro old <;> rfl

/-- what `xigt partition` receives -/
def PartitionReceives (r : Run (Dict Str Val)) (gs : List Given) (outdir : Str) (infiles : List Str) : Prop :=
  ∃ ns, r = .ok ns ∧
    Dict.get? ns (lit! "outdir") = some (.str outdir) ∧
    Dict.get? ns (lit! "infiles") = some (.list infiles) ∧
    Dict.get? ns (lit! "verbosity") = some (.nat (2 + (argsOf [lit! "-v", lit! "--verbose"] gs).length)) ∧
    Dict.get? ns (lit! "key_path") = some (lastOf .none [lit! "--key-path"] gs) ∧
    Dict.get? ns (lit! "default_key") = some (lastOf (.str (lit! "---")) [lit! "--default-key"] gs)

theorem partition_final {xs ys : List Given} (hx : Options partitionOptions xs) (hy : Options partitionOptions ys) {outdir : Str} {args infiles : List Str}
    (ha : args.erase (lit! "--") = [outdir]) (hi : infiles.erase (lit! "--") = infiles) :
    PartitionReceives (final partitionParser ((said1 xs).map (idx partitionParser) ++ ([(2, args), (3, infiles)] ++ (said1 ys).map (idx partitionParser))))
      (xs ++ ys) outdir infiles := by
  have hxy := options_append hx hy
  have heff := fun x hx => partition_eff (said1_mem hxy x hx)
  have hv1 : getValues { dest := lit! "outdir" } args = .ok (.one outdir) := by simp [getValues, ha]
  have hv2 : getValues { dest := lit! "infiles", nargs := .star } infiles = .ok (.many infiles) := by simp [getValues, hi]
  have he1 : ∀ d old, eff partitionParser d old (2, args) = if lit! "outdir" = d then some (.str outdir) else old := by
    intro d old
    have h1 : partitionParser.actions[2]? = some { dest := lit! "outdir" } := rfl
    unfold eff
    simp only [h1, hv1]
    rfl
  have he2 : ∀ d old, eff partitionParser d old (3, infiles) = if lit! "infiles" = d then some (.list infiles) else old := by
    intro d old
    have h1 : partitionParser.actions[3]? = some { dest := lit! "infiles", nargs := .star } := rfl
    unfold eff
    simp only [h1, hv2]
    rfl
  obtain ⟨ns, h1, h2, h3⟩ := final_ok (P := partitionParser) (xs := xs) (ys := ys) (pacts := [(2, args), (3, infiles)]) (fun x hx => (heff x hx).1) (by
      intro x hx
      simp only [List.mem_cons, List.not_mem_nil, or_false] at hx
      rcases hx with rfl | rfl
      · exact ⟨_, _, rfl, hv1, by decide⟩
      · exact ⟨_, _, rfl, hv2, by decide⟩) (fun i _ => clash_none rfl _ _) (by
      intro a ha hm
      have : a.2 = 2 ∨ a.2 = 3 := by
        simp only [partitionParser, List.zipIdx, List.mem_cons, List.not_mem_nil, or_false] at ha
        rcases ha with rfl | rfl | rfl | rfl | rfl | rfl <;> first | exact .inl rfl | exact .inr rfl | cases hm
      rcases this with h | h <;> rw [h] <;> simp)
  have hfold : ∀ d (names : List Str) F, lit! "outdir" ≠ d → lit! "infiles" ≠ d →
      (∀ x ∈ said1 (xs ++ ys), ∀ old, eff partitionParser d old (idx partitionParser x) = if x.1 ∈ names then F old x.2 else old) →
      ns.get? d = (argsOf names (xs ++ ys)).foldl F (partitionParser.defaults.get? d) := by
    intro d names F hd hd2 h
    rw [h2 d (by
      intro x hx old
      simp only [List.mem_cons, List.not_mem_nil, or_false] at hx
      rcases hx with rfl | rfl
      · rw [he1, if_neg hd]
      · rw [he2, if_neg hd2]), fold_said h]
    rfl
  refine ⟨ns, h1, ?_, ?_, ?_, ?_, ?_⟩
  · rw [h3 _ fun x hx => (heff x hx).2.1]
    simp [he1, he2]
  · rw [h3 _ fun x hx => (heff x hx).2.2.1]
    simp [he1, he2]
  · rw [hfold _ [lit! "-v", lit! "--verbose"] stepCount (by decide) (by decide) fun x hx => (heff x hx).2.2.2.1]
    exact foldl_count 2
  · rw [hfold _ [lit! "--key-path"] stepLast (by decide) (by decide) fun x hx => (heff x hx).2.2.2.2.1]
    exact foldl_last (argsOf_length hxy (by simp [partitionOptions])) .none
  · rw [hfold _ [lit! "--default-key"] stepLast (by decide) (by decide) fun x hx => (heff x hx).2.2.2.2.2]
    exact foldl_last (argsOf_length hxy (by simp [partitionOptions])) (.str (lit! "---"))

section
variable [Uni]

/-- C153, `xigt partition`: the directory and the files between options, or after options and `--` -/
theorem C153_partition (xs ys : List Given) (hx : Options partitionOptions xs) (hy : Options partitionOptions ys) (outdir : Str) (infiles : List Str) :
    ((∀ a ∈ outdir :: infiles, a.head? ≠ some '-') →
      PartitionReceives (parseArgs partitionParser (xs.flatMap Given.write ++ (outdir :: infiles ++ ys.flatMap Given.write))) (xs ++ ys) outdir infiles) ∧
    (lit! "--" ∉ infiles →
      PartitionReceives (parseArgs partitionParser (xs.flatMap Given.write ++ lit! "--" :: outdir :: infiles)) xs outdir infiles) := by
  constructor
  · intro hf
    have h := parse_plain partition_tidy partition_known hx hy hf (block_one_star (i := 2) (j := 3) rfl rfl rfl [] (.inl rfl))
    rw [h]
    refine partition_final hx hy ?_ (erase_plain fun a ha => hf a (List.mem_cons_of_mem _ ha))
    have : ∀ a ∈ [outdir], a.head? ≠ some '-' := by simpa using hf outdir (by simp)
    simpa [Tok.text] using erase_plain this
  · intro hf
    have h := parse_dashes partition_tidy partition_known hx (rest := outdir :: infiles) (block_one_star (i := 2) (j := 3) rfl rfl rfl [.dashes] (.inr rfl))
    rw [h]
    have := partition_final hx (ys := []) (by intro g hg; cases hg) (outdir := outdir) (args := ([Tok.dashes] ++ [Tok.arg outdir]).map Tok.text) (by simp [Tok.text])
      (List.erase_of_not_mem hf)
    simpa [said1] using this

end

/-! ### `xigt query` -/

/-- the options of `xigt query` with the numbers of their arguments (spec) -/
def queryOptions : List (Str × Nat) :=
  [(lit! "-v", 0), (lit! "--verbose", 0), (lit! "--basename", 0), (lit! "-f", 1), (lit! "--find", 1), (lit! "-t", 2), (lit! "--tally", 2),
   (lit! "-u", 1), (lit! "--unique", 1), (lit! "-c", 1), (lit! "--count", 1), (lit! "-d", 1), (lit! "--description", 1),
   (lit! "-D", 1), (lit! "--file-description", 1)]

/-- what options ask for, as the model of the queries has it (spec) -/
def asked (x : Str × List Str) : Option Qry.Opt :=
  if x.1 ∈ [lit! "-f", lit! "--find"] then some (.act (.find (x.2.headD [])))
  else if x.1 ∈ [lit! "-t", lit! "--tally"] then some (.act (.tally (x.2.headD []) (x.2.getLastD [])))
  else if x.1 ∈ [lit! "-u", lit! "--unique"] then some (.act (.unique (x.2.headD [])))
  else if x.1 ∈ [lit! "-c", lit! "--count"] then some (.act (.count (x.2.headD [])))
  else if x.1 ∈ [lit! "-d", lit! "--description"] then some (.description (x.2.headD []))
  else none

/-- the entries of `args.agenda` that the script reads (xigt_query.py:72-94) (spec) -/
def entry : Qry.Opt → Str × Value
  | .act (.find q) => (lit! "find", .many [q])
  | .act (.tally q s) => (lit! "tally", .many [q, s])
  | .act (.unique q) => (lit! "unique", .many [q])
  | .act (.count q) => (lit! "count", .many [q])
  | .description d => (lit! "description", .one d)

theorem query_tidy : queryParser.Tidy := tidy_of_B (by decide)

theorem query_known : ∀ o ∈ queryOptions, ∃ i, queryParser.find o.1 = some i ∧ queryParser.number i = o.2 := by
  intro o ho
  simp [queryOptions] at ho
  rcases ho with rfl | rfl | rfl | rfl | rfl | rfl | rfl | rfl | rfl | rfl | rfl | rfl | rfl | rfl | rfl <;> exact ⟨_, rfl, rfl⟩

theorem query_cases {x : Str × List Str} (h : (x.1, x.2.length) ∈ queryOptions) :
    (x.1 ∈ [lit! "-v", lit! "--verbose", lit! "--basename"] ∧ x.2 = []) ∨ (x.1 ∈ [lit! "-t", lit! "--tally"] ∧ ∃ v w, x.2 = [v, w]) ∨
    (x.1 ∈ [lit! "-f", lit! "--find", lit! "-u", lit! "--unique", lit! "-c", lit! "--count", lit! "-d", lit! "--description", lit! "-D", lit! "--file-description"] ∧
      ∃ v, x.2 = [v]) := by
  obtain ⟨n, l⟩ := x
  simp only [queryOptions, List.mem_cons, Prod.mk.injEq, List.not_mem_nil, or_false] at h
  match l with
  | [] => simp at h; simp; exact h
  | [v] => simp at h; simp; exact h
  | [v, w] => simp at h; simp; exact h
  | _ :: _ :: _ :: _ => simp at h

/-- one more entry -/
def stepAgenda (old : Option Val) (e : Str × Value) : Option Val :=
  some (.agenda ((match old with
    | some (.agenda l) => l
    | _ => []) ++ [e]))

theorem query_eff {x : Str × List Str} (h : (x.1, x.2.length) ∈ queryOptions) :
    Fine queryParser (idx queryParser x) ∧ (∀ old, eff queryParser (lit! "infiles") old (idx queryParser x) = old) ∧
    (∀ old, eff queryParser (lit! "verbosity") old (idx queryParser x) = if x.1 ∈ [lit! "-v", lit! "--verbose"] then stepCount old x.2 else old) ∧
    (∀ old, eff queryParser (lit! "basename") old (idx queryParser x) = if x.1 ∈ [lit! "--basename"] then stepTrue old x.2 else old) ∧
    (∀ old, eff queryParser (lit! "file_description") old (idx queryParser x) = if x.1 ∈ [lit! "-D", lit! "--file-description"] then stepLast old x.2 else old) ∧
    (∀ old, eff queryParser (lit! "agenda") old (idx queryParser x) = match asked x with
      | some o => stepAgenda old (entry o)
      | none => old) := by
  obtain ⟨n, l⟩ := x
  rcases query_cases h with ⟨h1, h2⟩ | ⟨h1, v, w, h2⟩ | ⟨h1, v, h2⟩ <;>
    simp only [List.mem_cons, List.not_mem_nil, or_false] at h1 h2 <;> subst h2
  · rcases h1 with rfl | rfl | rfl <;> refine ⟨⟨_, _, rfl, rfl, by decide⟩, ?_, ?_, ?_, ?_, ?_⟩ <;> intro old <;> rfl
  · rcases h1 with rfl | rfl <;> refine ⟨⟨_, _, rfl, rfl, by decide⟩, ?_, ?_, ?_, ?_, ?_⟩ <;> intro old <;> rfl
  · rcases h1 with rfl | rfl | rfl | rfl | rfl | rfl | rfl | rfl | rfl | rfl <;>
      refine ⟨⟨_, _, rfl, rfl, by decide⟩, ?_, ?_, ?_, ?_, ?_⟩ <;> intro old <;> rfl

theorem fold_agenda {l : List (Str × List Str)} (h : ∀ x ∈ l, ∀ old, eff queryParser (lit! "agenda") old (idx queryParser x) = match asked x with
      | some o => stepAgenda old (entry o)
      | none => old) : ∀ m : List (Str × Value),
    (l.map (idx queryParser)).foldl (eff queryParser (lit! "agenda")) (if m = [] then none else some (.agenda m)) =
      if m ++ (l.filterMap asked).map entry = [] then none else some (.agenda (m ++ (l.filterMap asked).map entry)) := by
  induction l with
  | nil => intro m; simp
  | cons x l ih =>
    intro m
    rw [List.map_cons, List.foldl_cons, h x (by simp)]
    have ih := ih fun y hy => h y (List.mem_cons_of_mem _ hy)
    cases ha : asked x with
    | none =>
      simp only [List.filterMap_cons, ha]
      exact ih m
    | some o =>
      simp only [List.filterMap_cons, ha]
      have h1 : stepAgenda (if m = [] then none else some (.agenda m)) (entry o) = if m ++ [entry o] = [] then none else some (.agenda (m ++ [entry o])) := by
        by_cases hm : m = []
        · subst hm; rfl
        · rw [if_neg hm, if_neg (by simp)]; rfl
      rw [h1, ih]
      simp

/-- what `xigt query` receives: the files, the requests in order (no attribute `agenda` if there are none), and the rest -/
def QueryReceives (r : Run (Dict Str Val)) (gs : List Given) (infiles : List Str) : Prop :=
  ∃ ns, r = .ok ns ∧
    Dict.get? ns (lit! "infiles") = some (.list infiles) ∧
    Dict.get? ns (lit! "agenda") = (if (said1 gs).filterMap asked = [] then none else some (.agenda (((said1 gs).filterMap asked).map entry))) ∧
    Dict.get? ns (lit! "verbosity") = some (.nat (2 + (argsOf [lit! "-v", lit! "--verbose"] gs).length)) ∧
    Dict.get? ns (lit! "basename") = some (.bool (decide (argsOf [lit! "--basename"] gs ≠ []))) ∧
    Dict.get? ns (lit! "file_description") = some (lastOf .none [lit! "-D", lit! "--file-description"] gs)

theorem argsOf_length2 {os : List (Str × Nat)} {gs : List Given} (h : Options os gs) {names : List Str} (hn : ∀ n ∈ names, ∀ k, (n, k) ∈ os → k = 1) :
    ∀ x ∈ argsOf names gs, x.length = 1 := by
  intro x hx
  obtain ⟨y, hy, rfl⟩ := List.mem_map.1 hx
  rw [List.mem_filter] at hy
  exact hn y.1 (by simpa using hy.2) _ (said1_mem h y hy.1)

theorem query_final {xs ys : List Given} (hx : Options queryOptions xs) (hy : Options queryOptions ys) {args infiles : List Str}
    (ha : args.erase (lit! "--") = infiles) :
    QueryReceives (final queryParser ((said1 xs).map (idx queryParser) ++ ([(2, args)] ++ (said1 ys).map (idx queryParser)))) (xs ++ ys) infiles := by
  have hxy := options_append hx hy
  have heff := fun x hx => query_eff (said1_mem hxy x hx)
  have hv : getValues { dest := lit! "infiles", nargs := .plus } args = .ok (.many infiles) := by simp [getValues, ha]
  have he : ∀ d old, eff queryParser d old (2, args) = if lit! "infiles" = d then some (.list infiles) else old := by
    intro d old
    have h1 : queryParser.actions[2]? = some { dest := lit! "infiles", nargs := .plus } := rfl
    unfold eff
    simp only [h1, hv]
    rfl
  obtain ⟨ns, h1, h2, h3⟩ := final_ok (P := queryParser) (xs := xs) (ys := ys) (pacts := [(2, args)]) (fun x hx => (heff x hx).1) (by
      intro x hx
      rw [List.mem_singleton.1 hx]
      exact ⟨_, _, rfl, hv, by decide⟩) (fun i _ => clash_none rfl _ _) (by
      intro a ha hm
      have : a.2 = 2 := by
        simp only [queryParser, List.zipIdx, List.mem_cons, List.not_mem_nil, or_false] at ha
        rcases ha with rfl | rfl | rfl | rfl | rfl | rfl | rfl | rfl | rfl | rfl <;> first | rfl | cases hm
      rw [this]; simp)
  have hfold : ∀ d (names : List Str) F, lit! "infiles" ≠ d →
      (∀ x ∈ said1 (xs ++ ys), ∀ old, eff queryParser d old (idx queryParser x) = if x.1 ∈ names then F old x.2 else old) →
      ns.get? d = (argsOf names (xs ++ ys)).foldl F (queryParser.defaults.get? d) := by
    intro d names F hd h
    rw [h2 d (by simp [he, hd]), fold_said h]
    rfl
  refine ⟨ns, h1, ?_, ?_, ?_, ?_, ?_⟩
  · rw [h3 _ fun x hx => (heff x hx).2.1]
    simp [he]
  · rw [h2 _ (by simp [he])]
    have := fold_agenda (l := said1 (xs ++ ys)) (fun x hx => (heff x hx).2.2.2.2.2) []
    simp only [if_true, List.nil_append, List.map_eq_nil_iff] at this
    exact this
  · rw [hfold _ [lit! "-v", lit! "--verbose"] stepCount (by decide) fun x hx => (heff x hx).2.2.1]
    exact foldl_count 2
  · rw [hfold _ [lit! "--basename"] stepTrue (by decide) fun x hx => (heff x hx).2.2.2.1, foldl_true]
    by_cases h : argsOf [lit! "--basename"] (xs ++ ys) = []
    · rw [if_pos h]; simp [h]; rfl
    · rw [if_neg h]; simp [h]
  · rw [hfold _ [lit! "-D", lit! "--file-description"] stepLast (by decide) fun x hx => (heff x hx).2.2.2.2.1]
    exact foldl_last (argsOf_length2 hxy (by simp [queryOptions])) .none

section
variable [Uni]

/-- C153, `xigt query`: one file or more between options, or after options and `--` -/
theorem C153_query (xs ys : List Given) (hx : Options queryOptions xs) (hy : Options queryOptions ys) (f : Str) (fs : List Str) :
    ((∀ a ∈ f :: fs, a.head? ≠ some '-') → QueryReceives (parseArgs queryParser (xs.flatMap Given.write ++ (f :: fs ++ ys.flatMap Given.write))) (xs ++ ys) (f :: fs)) ∧
    QueryReceives (parseArgs queryParser (xs.flatMap Given.write ++ lit! "--" :: f :: fs)) xs (f :: fs) := by
  constructor
  · intro hf
    have h := parse_plain query_tidy query_known hx hy hf (block_plus (i := 2) rfl rfl [] (.inl rfl))
    rw [h]
    refine query_final hx hy ?_
    rw [List.nil_append, texts_args]
    exact erase_plain hf
  · have h := parse_dashes query_tidy query_known hx (rest := f :: fs) (block_plus (i := 2) rfl rfl [.dashes] (.inr rfl))
    rw [h]
    have := query_final hx (ys := []) (by intro g hg; cases hg) (infiles := f :: fs) (args := ([Tok.dashes] ++ (f :: fs).map Tok.arg).map Tok.text) (by
      rw [List.map_append, texts_args]; simp [Tok.text])
    simpa [said1] using this

end

/-! ### `xigt validate` -/

/-- the options of `xigt validate` with the numbers of their arguments (spec) -/
def validateOptions : List (Str × Nat) := [(lit! "-v", 0), (lit! "--verbose", 0), (lit! "-q", 0), (lit! "--quiet", 0), (lit! "--color", 0)]

/-- the options on the verbosity, as the model of `xigt validate` has them (spec) -/
def flagOf (x : Str × List Str) : Option Vld.Flag :=
  if x.1 ∈ [lit! "-v", lit! "--verbose"] then some .verbose
  else if x.1 ∈ [lit! "-q", lit! "--quiet"] then some .quiet
  else none

theorem validate_tidy : validateParser.Tidy := tidy_of_B (by decide)

theorem validate_known : ∀ o ∈ validateOptions, ∃ i, validateParser.find o.1 = some i ∧ validateParser.number i = o.2 := by
  intro o ho
  simp [validateOptions] at ho
  rcases ho with rfl | rfl | rfl | rfl | rfl <;> exact ⟨_, rfl, rfl⟩

theorem validate_eff {x : Str × List Str} (h : (x.1, x.2.length) ∈ validateOptions) :
    Fine validateParser (idx validateParser x) ∧ (∀ old, eff validateParser (lit! "files") old (idx validateParser x) = old) ∧
    (∀ n, eff validateParser (lit! "verbosity") (some (.nat n)) (idx validateParser x) = some (.nat (match flagOf x with
      | some .verbose => n + 1
      | some .quiet => 0
      | none => n))) ∧
    (∀ old, eff validateParser (lit! "color") old (idx validateParser x) = if x.1 ∈ [lit! "--color"] then stepTrue old x.2 else old) := by
  obtain ⟨n, l⟩ := x
  have hl : l = [] := by
    simp [validateOptions] at h
    rcases h with h | h | h | h | h <;> exact h.2
  subst hl
  simp [validateOptions] at h
  rcases h with rfl | rfl | rfl | rfl | rfl <;> refine ⟨⟨_, _, rfl, rfl, by decide⟩, ?_, ?_, ?_⟩ <;> intro old <;> rfl

theorem fold_flags {l : List (Str × List Str)} (h : ∀ x ∈ l, ∀ n, eff validateParser (lit! "verbosity") (some (.nat n)) (idx validateParser x) = some (.nat (match flagOf x with
      | some .verbose => n + 1
      | some .quiet => 0
      | none => n))) : ∀ n : Nat,
    (l.map (idx validateParser)).foldl (eff validateParser (lit! "verbosity")) (some (.nat n)) = some (.nat ((l.filterMap flagOf).foldl (fun n f => match f with
      | Vld.Flag.verbose => n + 1
      | Vld.Flag.quiet => 0) n)) := by
  induction l with
  | nil => intro n; rfl
  | cons x l ih =>
    intro n
    rw [List.map_cons, List.foldl_cons, h x (by simp), ih fun y hy => h y (List.mem_cons_of_mem _ hy)]
    cases hf : flagOf x with
    | none => simp [hf]
    | some f => cases f <;> simp [hf]

/-- what `xigt validate` receives -/
def ValidateReceives (r : Run (Dict Str Val)) (gs : List Given) (files : List Str) : Prop :=
  ∃ ns, r = .ok ns ∧
    Dict.get? ns (lit! "files") = some (.list files) ∧
    Dict.get? ns (lit! "verbosity") = some (.nat (Vld.verbosity ((said1 gs).filterMap flagOf))) ∧
    Dict.get? ns (lit! "color") = some (.bool (decide (argsOf [lit! "--color"] gs ≠ [])))

theorem validate_final {xs ys : List Given} (hx : Options validateOptions xs) (hy : Options validateOptions ys) {args files : List Str}
    (ha : args.erase (lit! "--") = files) :
    ValidateReceives (final validateParser ((said1 xs).map (idx validateParser) ++ ([(1, args)] ++ (said1 ys).map (idx validateParser)))) (xs ++ ys) files := by
  have hxy := options_append hx hy
  have heff := fun x hx => validate_eff (said1_mem hxy x hx)
  have hv : getValues { dest := lit! "files", nargs := .plus } args = .ok (.many files) := by simp [getValues, ha]
  have he : ∀ d old, eff validateParser d old (1, args) = if lit! "files" = d then some (.list files) else old := by
    intro d old
    have h1 : validateParser.actions[1]? = some { dest := lit! "files", nargs := .plus } := rfl
    unfold eff
    simp only [h1, hv]
    rfl
  obtain ⟨ns, h1, h2, h3⟩ := final_ok (P := validateParser) (xs := xs) (ys := ys) (pacts := [(1, args)]) (fun x hx => (heff x hx).1) (by
      intro x hx
      rw [List.mem_singleton.1 hx]
      exact ⟨_, _, rfl, hv, by decide⟩) (fun i _ => clash_none rfl _ _) (by
      intro a ha hm
      have : a.2 = 1 := by
        simp only [validateParser, List.zipIdx, List.mem_cons, List.not_mem_nil, or_false] at ha
        rcases ha with rfl | rfl | rfl | rfl | rfl <;> first | rfl | cases hm
      rw [this]; simp)
  refine ⟨ns, h1, ?_, ?_, ?_⟩
  · rw [h3 _ fun x hx => (heff x hx).2.1]
    simp [he]
  · rw [h2 _ (by simp [he])]
    exact fold_flags (fun x hx => (heff x hx).2.2.1) 2
  · rw [h2 _ (by simp [he]), fold_said fun x hx => (heff x hx).2.2.2, foldl_true]
    by_cases h : argsOf [lit! "--color"] (xs ++ ys) = []
    · rw [if_pos (by exact h)]; simp [h]; rfl
    · rw [if_neg (by exact h)]; simp [h]

section
variable [Uni]

/-- C153, `xigt validate`: one file or more between options, or after options and `--` -/
theorem C153_validate (xs ys : List Given) (hx : Options validateOptions xs) (hy : Options validateOptions ys) (f : Str) (fs : List Str) :
    ((∀ a ∈ f :: fs, a.head? ≠ some '-') →
      ValidateReceives (parseArgs validateParser (xs.flatMap Given.write ++ (f :: fs ++ ys.flatMap Given.write))) (xs ++ ys) (f :: fs)) ∧
    ValidateReceives (parseArgs validateParser (xs.flatMap Given.write ++ lit! "--" :: f :: fs)) xs (f :: fs) := by
  constructor
  · intro hf
    have h := parse_plain validate_tidy validate_known hx hy hf (block_plus (i := 1) rfl rfl [] (.inl rfl))
    rw [h]
    refine validate_final hx hy ?_
    rw [List.nil_append, texts_args]
    exact erase_plain hf
  · have h := parse_dashes validate_tidy validate_known hx (rest := f :: fs) (block_plus (i := 1) rfl rfl [.dashes] (.inr rfl))
    rw [h]
    have := validate_final hx (ys := []) (by intro g hg; cases hg) (files := f :: fs) (args := ([Tok.dashes] ++ (f :: fs).map Tok.arg).map Tok.text) (by
      rw [List.map_append, texts_args]; simp [Tok.text])
    simpa [said1] using this

end

/-! ### `xigt import` and `xigt export` -/

/-- the options of `xigt import` and `xigt export` with the numbers of their arguments (spec) -/
def formatOptions : List (Str × Nat) :=
  [(lit! "-v", 0), (lit! "--verbose", 0), (lit! "-i", 1), (lit! "--input", 1), (lit! "-o", 1), (lit! "--output", 1), (lit! "-f", 1), (lit! "--format", 1),
   (lit! "-c", 1), (lit! "--config", 1)]

theorem format_table (fs : List Str) : (formatParser fs).table = [(lit! "-h", 0), (lit! "--help", 0), (lit! "-v", 1), (lit! "--verbose", 1),
   (lit! "-i", 2), (lit! "--input", 2), (lit! "-o", 3), (lit! "--output", 3), (lit! "-f", 4), (lit! "--format", 4), (lit! "-c", 5), (lit! "--config", 5)] := rfl

theorem format_tidy (fs : List Str) : (formatParser fs).Tidy := tidy_of_B (by rw [format_table]; decide)

theorem format_known (fs : List Str) : ∀ o ∈ formatOptions, ∃ i, (formatParser fs).find o.1 = some i ∧ (formatParser fs).number i = o.2 := by
  intro o ho
  simp [formatOptions] at ho
  rcases ho with rfl | rfl | rfl | rfl | rfl | rfl | rfl | rfl | rfl | rfl <;> exact ⟨_, rfl, rfl⟩

theorem format_cases {x : Str × List Str} (h : (x.1, x.2.length) ∈ formatOptions) :
    (x.1 ∈ [lit! "-v", lit! "--verbose"] ∧ x.2 = []) ∨
    (x.1 ∈ [lit! "-i", lit! "--input", lit! "-o", lit! "--output", lit! "-f", lit! "--format", lit! "-c", lit! "--config"] ∧ ∃ v, x.2 = [v]) := by
  obtain ⟨n, l⟩ := x
  simp only [formatOptions, List.mem_cons, Prod.mk.injEq, List.not_mem_nil, or_false] at h
  match l with
  | [] => simp at h; simp; exact h
  | [v] => simp at h; simp; exact h
  | _ :: _ :: _ => simp at h

/-- the formats that are named are among those that there are -/
def FormatsIn (fs : List Str) (gs : List Given) : Prop := ∀ x ∈ argsOf [lit! "-f", lit! "--format"] gs, ∀ v ∈ x, v ∈ fs

theorem format_eff (fs : List Str) {x : Str × List Str} (h : (x.1, x.2.length) ∈ formatOptions) :
    ((x.1 ∈ [lit! "-f", lit! "--format"] → ∀ v ∈ x.2, v ∈ fs) → Fine (formatParser fs) (idx (formatParser fs) x) ∧
      ∀ old, eff (formatParser fs) (lit! "format") old (idx (formatParser fs) x) = if x.1 ∈ [lit! "-f", lit! "--format"] then stepLast old x.2 else old) ∧
    (¬ (x.1 ∈ [lit! "-f", lit! "--format"] → ∀ v ∈ x.2, v ∈ fs) → ∀ st, takeAction (formatParser fs) st (idx (formatParser fs) x).1 (idx (formatParser fs) x).2 = .error .usage) ∧
    (∀ old, eff (formatParser fs) (lit! "verbosity") old (idx (formatParser fs) x) = if x.1 ∈ [lit! "-v", lit! "--verbose"] then stepCount old x.2 else old) ∧
    (∀ old, eff (formatParser fs) (lit! "input") old (idx (formatParser fs) x) = if x.1 ∈ [lit! "-i", lit! "--input"] then stepLast old x.2 else old) ∧
    (∀ old, eff (formatParser fs) (lit! "output") old (idx (formatParser fs) x) = if x.1 ∈ [lit! "-o", lit! "--output"] then stepLast old x.2 else old) ∧
    (∀ old, eff (formatParser fs) (lit! "config") old (idx (formatParser fs) x) = if x.1 ∈ [lit! "-c", lit! "--config"] then stepLast old x.2 else old) := by
  have hval : ∀ v, getValues { opts := [lit! "-f", lit! "--format"], dest := lit! "format", choices := some fs, default := .str (fs.headD []) } [v] =
      if v ∈ fs then .ok (.one v) else .error .usage := by
    intro v
    simp [getValues]
  by_cases hmem : x.1 ∈ [lit! "-f", lit! "--format"]
  · have hno : ∀ o ∈ [lit! "-f", lit! "--format"], (o, 0) ∉ formatOptions ∧ o ∉ [lit! "-v", lit! "--verbose"] ∧ o ∉ [lit! "-i", lit! "--input"] ∧
        o ∉ [lit! "-o", lit! "--output"] ∧ o ∉ [lit! "-c", lit! "--config"] := by decide
    obtain ⟨-, h1, h2, h3, h4⟩ := hno _ hmem
    obtain ⟨v, hv⟩ : ∃ v, x.2 = [v] := by
      rcases format_cases h with ⟨h5, -⟩ | ⟨-, h5⟩
      · exact absurd h5 h1
      · exact h5
    have hidx : idx (formatParser fs) x = (4, [v]) := by
      obtain ⟨n, l⟩ := x
      cases hv
      simp only [List.mem_cons, List.not_mem_nil, or_false] at hmem
      rcases hmem with rfl | rfl <;> rfl
    have hact : (formatParser fs).actions[4]? = some { opts := [lit! "-f", lit! "--format"], dest := lit! "format", choices := some fs, default := .str (fs.headD []) } := rfl
    have heff : ∀ d old, lit! "format" ≠ d → eff (formatParser fs) d old (4, [v]) = old := by
      intro d old hd
      unfold eff
      simp only [hact, hval]
      by_cases hv : v ∈ fs
      · simp only [if_pos hv]
        exact if_neg hd
      · simp only [if_neg hv]
    rw [hidx, hv]
    refine ⟨fun hf => ?_, fun hf st => ?_, fun old => ?_, fun old => ?_, fun old => ?_, fun old => ?_⟩
    · have hv : v ∈ fs := hf hmem v (by simp)
      refine ⟨⟨_, .one v, hact, by rw [hval, if_pos hv], by simp⟩, fun old => ?_⟩
      unfold eff
      simp only [hact, hval, if_pos hv, if_pos hmem]
      rfl
    · have hv : v ∉ fs := fun hv => hf fun _ w hw => by rw [List.mem_singleton.1 hw]; exact hv
      unfold takeAction
      simp only [hact, hval, if_neg hv]
      rfl
    · rw [heff _ _ (by decide), if_neg h1]
    · rw [heff _ _ (by decide), if_neg h2]
    · rw [heff _ _ (by decide), if_neg h3]
    · rw [heff _ _ (by decide), if_neg h4]
  · refine ⟨fun _ => ?_, fun h => absurd (fun hm => absurd hm hmem) h, ?_⟩
    · obtain ⟨n, l⟩ := x
      rcases format_cases h with ⟨h1, h2⟩ | ⟨h1, v, h2⟩ <;> simp only [List.mem_cons, List.not_mem_nil, or_false] at h1 h2 <;> subst h2
      · rcases h1 with rfl | rfl <;> exact ⟨⟨_, _, rfl, rfl, fun h => nomatch h⟩, fun old => rfl⟩
      · rcases h1 with rfl | rfl | rfl | rfl | rfl | rfl | rfl | rfl <;> first | exact (hmem List.mem_cons_self).elim | exact (hmem (List.mem_cons_of_mem _ List.mem_cons_self)).elim | exact ⟨⟨_, _, rfl, rfl, fun h => nomatch h⟩, fun old => rfl⟩
    · obtain ⟨n, l⟩ := x
      rcases format_cases h with ⟨h1, h2⟩ | ⟨h1, v, h2⟩ <;> simp only [List.mem_cons, List.not_mem_nil, or_false] at h1 h2 <;> subst h2
      · rcases h1 with rfl | rfl <;> exact ⟨fun old => rfl, fun old => rfl, fun old => rfl, fun old => rfl⟩
      · rcases h1 with rfl | rfl | rfl | rfl | rfl | rfl | rfl | rfl <;>
          first | exact (hmem List.mem_cons_self).elim | exact (hmem (List.mem_cons_of_mem _ List.mem_cons_self)).elim | exact ⟨fun old => rfl, fun old => rfl, fun old => rfl, fun old => rfl⟩

theorem takeAll_bad {P : Parser} {l : List (Nat × List Str)} (hg : P.groups = []) (h : ∀ x ∈ l, Fine P x ∨ ∀ st, takeAction P st x.1 x.2 = .error .usage) :
    ∀ {st : St}, (∃ x ∈ l, ∀ st, takeAction P st x.1 x.2 = .error .usage) → takeAll P st l = .error .usage := by
  induction l with
  | nil => rintro st ⟨x, hx, _⟩; cases hx
  | cons y l ih =>
    rintro st ⟨x, hx, hb⟩
    show takeAction P st y.1 y.2 >>= _ = _
    rcases h y (by simp) with hy | hy
    · obtain ⟨st', hst⟩ := (takeAction_fine hy st).2 (clash_none hg _ _)
      rw [hst]
      rcases List.mem_cons.1 hx with rfl | hx
      · rw [hb st] at hst; cases hst
      · exact ih (fun z hz => h z (List.mem_cons_of_mem _ hz)) ⟨x, hx, hb⟩
    · rw [hy]; rfl

/-- what `xigt import` and `xigt export` receive -/
def FormatReceives (fs : List Str) (r : Run (Dict Str Val)) (gs : List Given) : Prop :=
  ∃ ns, r = .ok ns ∧
    Dict.get? ns (lit! "input") = some (lastOf .none [lit! "-i", lit! "--input"] gs) ∧
    Dict.get? ns (lit! "output") = some (lastOf .none [lit! "-o", lit! "--output"] gs) ∧
    Dict.get? ns (lit! "format") = some (lastOf (.str (fs.headD [])) [lit! "-f", lit! "--format"] gs) ∧
    Dict.get? ns (lit! "config") = some (lastOf .none [lit! "-c", lit! "--config"] gs) ∧
    Dict.get? ns (lit! "verbosity") = some (.nat (2 + (argsOf [lit! "-v", lit! "--verbose"] gs).length))

theorem format_seen (fs : List Str) {x : Str × List Str} (h : (x.1, x.2.length) ∈ formatOptions) :
    ((idx (formatParser fs) x).1 = 2 ↔ x.1 ∈ [lit! "-i", lit! "--input"]) ∧ ((idx (formatParser fs) x).1 = 3 ↔ x.1 ∈ [lit! "-o", lit! "--output"]) := by
  obtain ⟨n, l⟩ := x
  have h1 : ∀ o ∈ formatOptions, ((((formatParser []).find o.1).getD 0 = 2 ↔ o.1 ∈ [lit! "-i", lit! "--input"])) ∧
    (((formatParser []).find o.1).getD 0 = 3 ↔ o.1 ∈ [lit! "-o", lit! "--output"]) := by decide
  exact h1 _ h

theorem argsOf_ne {names : List Str} {gs : List Given} : argsOf names gs ≠ [] ↔ ∃ x ∈ said1 gs, x.1 ∈ names := by
  unfold argsOf
  simp only [ne_eq, List.map_eq_nil_iff, List.filter_eq_nil_iff]
  constructor
  · intro h
    false_or_by_contra
    rename_i hc
    exact h fun x hx hn => hc ⟨x, hx, by simpa using hn⟩
  · rintro ⟨x, hx, hn⟩ h
    exact h x hx (by simpa using hn)

theorem format_parse [Uni] (fs : List Str) {gs : List Given} (h : Options formatOptions gs) :
    parseArgs (formatParser fs) (gs.flatMap Given.write) = final (formatParser fs) ((said1 gs).map (idx (formatParser fs))) := by
  have := parse_plain (format_tidy fs) (format_known fs) h (ys := []) (by intro g hg; cases hg) (rest := []) (by simp) (pacts := []) (.inl ⟨rfl, rfl, rfl⟩)
  simpa [said1] using this

theorem formats_iff {fs : List Str} {gs : List Given} : FormatsIn fs gs ↔ ∀ x ∈ said1 gs, x.1 ∈ [lit! "-f", lit! "--format"] → ∀ v ∈ x.2, v ∈ fs := by
  unfold FormatsIn argsOf
  constructor
  · intro h x hx hn
    exact h x.2 (List.mem_map.2 ⟨x, List.mem_filter.2 ⟨hx, by simpa using hn⟩, rfl⟩)
  · intro h y hy
    obtain ⟨x, hx, rfl⟩ := List.mem_map.1 hy
    rw [List.mem_filter] at hx
    exact h x hx.1 (by simpa using hx.2)

section
variable [Uni]

/-- C153, `xigt import` and `xigt export`: the input and the output are needed, and the formats must be known -/
theorem C153_formats (fs : List Str) (gs : List Given) (h : Options formatOptions gs) :
    (argsOf [lit! "-i", lit! "--input"] gs ≠ [] ∧ argsOf [lit! "-o", lit! "--output"] gs ≠ [] ∧ FormatsIn fs gs →
      FormatReceives fs (parseArgs (formatParser fs) (gs.flatMap Given.write)) gs) ∧
    (¬ (argsOf [lit! "-i", lit! "--input"] gs ≠ [] ∧ argsOf [lit! "-o", lit! "--output"] gs ≠ [] ∧ FormatsIn fs gs) →
      parseArgs (formatParser fs) (gs.flatMap Given.write) = .error .usage) := by
  have heff := fun x hx => format_eff fs (said1_mem h x hx)
  rw [format_parse fs h]
  have hseen : ∀ i, i ∈ ((said1 gs).map (idx (formatParser fs))).map Prod.fst ↔ ∃ x ∈ said1 gs, (idx (formatParser fs) x).1 = i := by
    intro i; simp
  constructor
  · rintro ⟨h1, h2, h3⟩
    rw [formats_iff] at h3
    rw [argsOf_ne] at h1 h2
    obtain ⟨ns, g1, g2, -⟩ := final_ok (P := formatParser fs) (xs := gs) (ys := []) (pacts := []) (fun x hx => by
        rw [List.append_nil] at hx
        exact ((heff x hx).1 (h3 x hx)).1) (by intro x hx; cases hx) (fun i _ => clash_none rfl _ _) (by
        intro a ha hm
        have : a.2 = 2 ∨ a.2 = 3 := by
          simp only [formatParser, List.zipIdx, List.mem_cons, List.not_mem_nil, or_false] at ha
          rcases ha with rfl | rfl | rfl | rfl | rfl | rfl <;> first | exact .inl rfl | exact .inr rfl | cases hm
        rw [List.append_nil, List.append_nil]
        refine (hseen _).2 ?_
        rcases this with h | h <;> rw [h]
        · obtain ⟨x, hx, hn⟩ := h1
          exact ⟨x, hx, (format_seen fs (said1_mem (by assumption) x hx)).1.2 hn⟩
        · obtain ⟨x, hx, hn⟩ := h2
          exact ⟨x, hx, (format_seen fs (said1_mem (by assumption) x hx)).2.2 hn⟩)
    have e : (said1 gs).map (idx (formatParser fs)) ++ ([] ++ (said1 ([] : List Given)).map (idx (formatParser fs))) = (said1 gs).map (idx (formatParser fs)) := by
      simp [said1]
    rw [e] at g1
    have hfold : ∀ d (names : List Str) F,
        (∀ x ∈ said1 gs, ∀ old, eff (formatParser fs) d old (idx (formatParser fs) x) = if x.1 ∈ names then F old x.2 else old) →
        ns.get? d = (argsOf names gs).foldl F ((formatParser fs).defaults.get? d) := by
      intro d names F h
      rw [g2 d (by simp), List.append_nil, fold_said h]
      rfl
    refine ⟨ns, g1, ?_, ?_, ?_, ?_, ?_⟩
    · rw [hfold _ [lit! "-i", lit! "--input"] stepLast fun x hx => (heff x hx).2.2.2.1]
      exact foldl_last (argsOf_length2 h (by simp [formatOptions])) .none
    · rw [hfold _ [lit! "-o", lit! "--output"] stepLast fun x hx => (heff x hx).2.2.2.2.1]
      exact foldl_last (argsOf_length2 h (by simp [formatOptions])) .none
    · rw [hfold _ [lit! "-f", lit! "--format"] stepLast fun x hx => ((heff x hx).1 (h3 x hx)).2]
      exact foldl_last (argsOf_length2 h (by simp [formatOptions])) (.str (fs.headD []))
    · rw [hfold _ [lit! "-c", lit! "--config"] stepLast fun x hx => (heff x hx).2.2.2.2.2]
      exact foldl_last (argsOf_length2 h (by simp [formatOptions])) .none
    · rw [hfold _ [lit! "-v", lit! "--verbose"] stepCount fun x hx => (heff x hx).2.2.1]
      exact foldl_count 2
  · intro hn
    by_cases h3 : FormatsIn fs gs
    · rw [formats_iff] at h3
      obtain ⟨st, hst⟩ := takeAll_fine (P := formatParser fs) (l := (said1 gs).map (idx (formatParser fs)))
        (st := ⟨(formatParser fs).defaults, [], (formatParser fs).positionals, []⟩) (by
          intro x hx
          obtain ⟨y, hy, rfl⟩ := List.mem_map.1 hx
          exact ((heff y hy).1 (h3 y hy)).1) (fun i _ => clash_none rfl _ _)
      obtain ⟨e1, -⟩ := takeAll_eff hst
      unfold final
      rw [hst]
      show ended _ st = _
      unfold ended
      rw [if_pos]
      rw [List.any_eq_true]
      by_cases h1 : argsOf [lit! "-i", lit! "--input"] gs ≠ []
      · have h2 : ¬ argsOf [lit! "-o", lit! "--output"] gs ≠ [] := fun h2 => hn ⟨h1, h2, formats_iff.2 h3⟩
        refine ⟨({ opts := [lit! "-o", lit! "--output"], dest := lit! "output", required := true }, 3), by simp [formatParser, List.zipIdx], ?_⟩
        rw [argsOf_ne] at h2
        simp only [Bool.and_eq_true, Bool.not_eq_true', decide_eq_false_iff_not]
        refine ⟨rfl, fun hm => h2 ?_⟩
        obtain ⟨x, hx, hi⟩ := (hseen 3).1 (by simpa [e1] using hm)
        exact ⟨x, hx, (format_seen fs (said1_mem h x hx)).2.1 hi⟩
      · refine ⟨({ opts := [lit! "-i", lit! "--input"], dest := lit! "input", required := true }, 2), by simp [formatParser, List.zipIdx], ?_⟩
        rw [argsOf_ne] at h1
        simp only [Bool.and_eq_true, Bool.not_eq_true', decide_eq_false_iff_not]
        refine ⟨rfl, fun hm => h1 ?_⟩
        obtain ⟨x, hx, hi⟩ := (hseen 2).1 (by simpa [e1] using hm)
        exact ⟨x, hx, (format_seen fs (said1_mem h x hx)).1.1 hi⟩
    · rw [formats_iff] at h3
      unfold final
      rw [takeAll_bad rfl (by
        intro x hx
        obtain ⟨y, hy, rfl⟩ := List.mem_map.1 hx
        by_cases hf : y.1 ∈ [lit! "-f", lit! "--format"] → ∀ v ∈ y.2, v ∈ fs
        · exact .inl ((heff y hy).1 hf).1
        · exact .inr ((heff y hy).2.1 hf)) (by
        false_or_by_contra
        rename_i hc
        exact h3 fun y hy => Classical.byContradiction fun hf => hc ⟨_, List.mem_map.2 ⟨y, hy, rfl⟩, (heff y hy).2.1 hf⟩)]
      rfl

/-- C153, `xigt import`: toolbox or odin, toolbox if nothing is said -/
theorem C153_import (gs : List Given) (h : Options formatOptions gs) :
    (argsOf [lit! "-i", lit! "--input"] gs ≠ [] ∧ argsOf [lit! "-o", lit! "--output"] gs ≠ [] ∧ FormatsIn [lit! "toolbox", lit! "odin"] gs →
      FormatReceives [lit! "toolbox", lit! "odin"] (parseArgs importParser (gs.flatMap Given.write)) gs) ∧
    (¬ (argsOf [lit! "-i", lit! "--input"] gs ≠ [] ∧ argsOf [lit! "-o", lit! "--output"] gs ≠ [] ∧ FormatsIn [lit! "toolbox", lit! "odin"] gs) →
      parseArgs importParser (gs.flatMap Given.write) = .error .usage) :=
  C153_formats _ gs h

/-- C153, `xigt export`: latex or itsdb, latex if nothing is said -/
theorem C153_export (gs : List Given) (h : Options formatOptions gs) :
    (argsOf [lit! "-i", lit! "--input"] gs ≠ [] ∧ argsOf [lit! "-o", lit! "--output"] gs ≠ [] ∧ FormatsIn [lit! "latex", lit! "itsdb"] gs →
      FormatReceives [lit! "latex", lit! "itsdb"] (parseArgs exportParser (gs.flatMap Given.write)) gs) ∧
    (¬ (argsOf [lit! "-i", lit! "--input"] gs ≠ [] ∧ argsOf [lit! "-o", lit! "--output"] gs ≠ [] ∧ FormatsIn [lit! "latex", lit! "itsdb"] gs) →
      parseArgs exportParser (gs.flatMap Given.write) = .error .usage) :=
  C153_formats _ gs h

end

end Xigt.Cmd
