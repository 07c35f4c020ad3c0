import Verif.Scripts.CommandGiven
/-
C153 to C155: what the scripts receive from their command lines, /repo/xigt/scripts.
-/

set_option linter.unusedSectionVars false

namespace Xigt.Cmd

/-! ### The spec: what a list of options says -/

/-- the options one by one, in order, with their arguments (spec) -/
def said1 (gs : List Given) : List (Str × List Str) := gs.flatMap fun g => List.replicate g.times (g.name, g.args)

/-- the arguments that were given to an option, in order (spec) -/
def argsOf (names : List Str) (gs : List Given) : List (List Str) := ((said1 gs).filter fun o => decide (o.1 ∈ names)).map Prod.snd

/-- the last of these, if any -/
def lastOf (d : Val) (names : List Str) (gs : List Given) : Val :=
  match (argsOf names gs).getLast? with
  | some (s :: _) => .str s
  | _ => d

/-- all of these, if any -/
def allOf (names : List Str) (gs : List Given) : Val :=
  match argsOf names gs with
  | [] => .none
  | l => .list l.flatten

/-- the options of a script with the numbers of their arguments, and all well written -/
def Options (os : List (Str × Nat)) (gs : List Given) : Prop := ∀ g ∈ gs, (g.name, g.args.length) ∈ os ∧ g.Well

/-! ### What actions do -/

/-- the attribute that an action sets -/
def Action.target (a : Action) : Str := if a.kind = .agenda then lit! "agenda" else a.dest

/-- the new value -/
def Action.value (a : Action) (v : Value) (old : Option Val) : Val :=
  match a.kind with
  | .store => (match v with
    | .one s => .str s
    | .many l => .list l)
  | .const c => c
  | .append => .list ((match old with
    | some (.list l) => l
    | _ => []) ++ (match v with
      | .one s => [s]
      | .many l => l))
  | .count => .nat ((match old with
    | some (.nat n) => n
    | _ => 0) + 1)
  | .help => .none
  | .agenda => .agenda ((match old with
    | some (.agenda l) => l
    | _ => []) ++ [(a.dest, v)])

/-- what an action with its arguments does to an attribute -/
def eff (P : Parser) (d : Str) (old : Option Val) (x : Nat × List Str) : Option Val :=
  match P.actions[x.1]? with
  | none => old
  | some a => (match getValues a x.2 with
    | .error _ => old
    | .ok v => if a.target = d then some (a.value v old) else old)

theorem act_value {a : Action} {v : Value} {ns : Dict Str Val} (h : a.kind ≠ .help) :
    act a v ns = .ok (ns.set a.target (a.value v (ns.get? a.target))) := by
  unfold act Action.target Action.value
  cases hk : a.kind with
  | help => exact absurd hk h
  | _ => rfl

theorem takeAction_eff {P : Parser} {st st' : St} {i args} (h : takeAction P st i args = .ok st') :
    st'.seen = i :: st.seen ∧ ∀ d, Dict.get? st'.ns d = eff P d (Dict.get? st.ns d) (i, args) := by
  unfold takeAction at h
  split at h
  · cases h
  · rename_i a ha
    obtain ⟨v, hv, h⟩ := run_ok h
    split at h
    · cases h
    · obtain ⟨ns, hn, h⟩ := run_ok h
      cases h
      refine ⟨rfl, ?_⟩
      intro d
      unfold eff
      simp only [ha, hv]
      have h := act_value (a := a) (v := v) (ns := st.ns) (h := fun hk => by unfold act at hn; rw [hk] at hn; cases hn)
      rw [h] at hn
      cases hn
      rw [Dict.get?_set]
      by_cases hd : a.target = d
      · rw [if_pos hd, if_pos hd, hd]
      · rw [if_neg hd, if_neg hd]

theorem takeAll_eff {P : Parser} {l} : ∀ {st st' : St}, takeAll P st l = .ok st' →
    (∀ i, i ∈ st'.seen ↔ i ∈ st.seen ∨ i ∈ l.map Prod.fst) ∧ ∀ d, Dict.get? st'.ns d = l.foldl (eff P d) (Dict.get? st.ns d) := by
  induction l with
  | nil => intro st st' h; cases h; simp
  | cons x l ih =>
    intro st st' h
    obtain ⟨i, args⟩ := x
    obtain ⟨s1, h1, h⟩ := run_ok h
    obtain ⟨h2, h3⟩ := takeAction_eff h1
    obtain ⟨h4, h5⟩ := ih h
    constructor
    · intro j
      rw [h4, h2]
      simp only [List.mem_cons, List.map_cons]
      constructor
      · rintro ((h | h) | h) <;> simp [h]
      · rintro (h | h | h) <;> simp [h]
    · intro d
      rw [h5, h3]
      rfl

/-- an action that can be taken with these arguments -/
def Fine (P : Parser) (x : Nat × List Str) : Prop := ∃ a v, P.actions[x.1]? = some a ∧ getValues a x.2 = .ok v ∧ a.kind ≠ .help

/-- some option has been given that excludes this one -/
def clash (P : Parser) (seen : List Nat) (i : Nat) : Bool :=
  P.groups.any (fun g => decide (i ∈ g) && g.any fun j => decide (j ≠ i) && decide (j ∈ seen))

theorem takeAction_fine {P : Parser} {x : Nat × List Str} (h : Fine P x) (st : St) :
    (clash P st.seen x.1 = true → takeAction P st x.1 x.2 = .error .usage) ∧
    (clash P st.seen x.1 = false → ∃ st', takeAction P st x.1 x.2 = .ok st') := by
  obtain ⟨a, v, h1, h2, h3⟩ := h
  unfold takeAction
  simp only [h1, h2, bind, Except.bind]
  constructor
  · intro hc
    unfold clash at hc
    rw [if_pos hc]
  · intro hc
    unfold clash at hc
    rw [if_neg (by rw [hc]; simp), act_value h3]
    exact ⟨_, rfl⟩

theorem takeAll_fine {P : Parser} {l} : ∀ {st : St}, (∀ x ∈ l, Fine P x) →
    (∀ i ∈ l.map Prod.fst, clash P (st.seen ++ l.map Prod.fst) i = false) → ∃ st', takeAll P st l = .ok st' := by
  induction l with
  | nil => intro st _ _; exact ⟨st, rfl⟩
  | cons x l ih =>
    intro st hf hc
    have hmono : ∀ {s1 s2 : List Nat} {i}, (∀ j ∈ s1, j ∈ s2) → clash P s2 i = false → clash P s1 i = false := by
      intro s1 s2 i hs h
      cases h1 : clash P s1 i with
      | false => rfl
      | true =>
        exfalso
        unfold clash at h h1
        rw [List.any_eq_true] at h1
        obtain ⟨g, hg, h1⟩ := h1
        rw [List.any_eq_false] at h
        apply h g hg
        simp only [Bool.and_eq_true, List.any_eq_true, decide_eq_true_eq] at h1 ⊢
        obtain ⟨h2, j, h3, h4, h5⟩ := h1
        exact ⟨h2, j, h3, h4, hs j h5⟩
    obtain ⟨s1, h1⟩ := (takeAction_fine (hf x (by simp)) st).2 (hmono (s2 := st.seen ++ (x :: l).map Prod.fst) (by simp +contextual) (hc x.1 (by simp)))
    have hseen := (takeAction_eff h1).1
    obtain ⟨s2, h2⟩ := ih (st := s1) (fun y hy => hf y (List.mem_cons_of_mem _ hy)) (fun i hi =>
      hmono (s2 := st.seen ++ (x :: l).map Prod.fst) (by
        rw [hseen]
        intro j hj
        simp only [List.cons_append, List.mem_cons, List.mem_append, List.map_cons] at hj ⊢
        rcases hj with h | h | h <;> simp [h]) (hc i (by simp only [List.map_cons, List.mem_cons]; exact .inr hi)))
    refine ⟨s2, ?_⟩
    show takeAction P st x.1 x.2 >>= _ = _
    rw [h1]
    exact h2

/-- two options that exclude each other -/
theorem takeAll_clash {P : Parser} {l} {i j : Nat} (hij : ∀ seen, i ∈ seen → clash P seen j = true) (hji : ∀ seen, j ∈ seen → clash P seen i = true) :
    ∀ {st : St}, (∀ x ∈ l, Fine P x) → (i ∈ st.seen ∨ i ∈ l.map Prod.fst) → (j ∈ st.seen ∨ j ∈ l.map Prod.fst) → ¬ (i ∈ st.seen ∧ j ∈ st.seen) → i ≠ j →
      takeAll P st l = .error .usage := by
  induction l with
  | nil =>
    intro st _ h1 h2 h3
    simp at h1 h2
    exact absurd ⟨h1, h2⟩ h3
  | cons x l ih =>
    intro st hf h1 h2 h3 hne
    have hx := takeAction_fine (hf x (by simp)) st
    show takeAction P st x.1 x.2 >>= _ = _
    cases hc : clash P st.seen x.1 with
    | true =>
      rw [hx.1 hc]; rfl
    | false =>
      obtain ⟨s1, hs1⟩ := hx.2 hc
      have hseen := (takeAction_eff hs1).1
      rw [hs1]
      show takeAll P s1 l = _
      refine ih (fun y hy => hf y (List.mem_cons_of_mem _ hy)) ?_ ?_ ?_ hne
      · rw [hseen]
        simp only [List.map_cons, List.mem_cons] at h1 ⊢
        rcases h1 with h | h | h <;> simp [h]
      · rw [hseen]
        simp only [List.map_cons, List.mem_cons] at h2 ⊢
        rcases h2 with h | h | h <;> simp [h]
      · rw [hseen]
        rintro ⟨ha, hb⟩
        simp only [List.mem_cons] at ha hb
        rcases ha with ha | ha
        · rcases hb with hb | hb
          · exact hne (ha.trans hb.symm)
          · rw [← ha, hji _ hb] at hc; cases hc
        · rcases hb with hb | hb
          · rw [← hb, hij _ ha] at hc; cases hc
          · exact h3 ⟨ha, hb⟩

/-! ### Values -/

/-- the number of an option's action -/
def idx (P : Parser) (x : Str × List Str) : Nat × List Str := ((P.find x.1).getD 0, x.2)

theorem acts_said (P : Parser) (gs : List Given) : gs.flatMap (Given.acts P) = (said1 gs).map (idx P) := by
  induction gs with
  | nil => rfl
  | cons g gs ih =>
    simp only [List.flatMap_cons, ih, said1, List.map_append, List.map_replicate]
    rfl

theorem said1_append (xs ys : List Given) : said1 (xs ++ ys) = said1 xs ++ said1 ys := by simp [said1]

theorem said1_mem {os : List (Str × Nat)} {gs : List Given} (h : Options os gs) : ∀ x ∈ said1 gs, (x.1, x.2.length) ∈ os := by
  intro x hx
  obtain ⟨g, hg, hx⟩ := List.mem_flatMap.1 hx
  rw [(List.mem_replicate.1 hx).2]
  exact (h g hg).1

/-- the value of an attribute after the options, from what each of them does -/
theorem fold_said {P : Parser} {d : Str} {names : List Str} {F : Option Val → List Str → Option Val} {l : List (Str × List Str)}
    (h : ∀ x ∈ l, ∀ old, eff P d old (idx P x) = if x.1 ∈ names then F old x.2 else old) :
    ∀ old, (l.map (idx P)).foldl (eff P d) old = ((l.filter fun o => decide (o.1 ∈ names)).map Prod.snd).foldl F old := by
  induction l with
  | nil => intro old; rfl
  | cons x l ih =>
    intro old
    rw [List.map_cons, List.foldl_cons, h x (by simp), ih (fun y hy => h y (List.mem_cons_of_mem _ hy))]
    by_cases hx : x.1 ∈ names
    · simp [hx]
    · simp [hx]

/-- what the kinds of options do to a value: count, keep the last, keep all, note -/
def stepCount (old : Option Val) (_ : List Str) : Option Val :=
  some (.nat ((match old with
    | some (.nat n) => n
    | _ => 0) + 1))

def stepLast (old : Option Val) (args : List Str) : Option Val :=
  match args with
  | s :: _ => some (.str s)
  | [] => old

def stepAll (old : Option Val) (args : List Str) : Option Val :=
  some (.list ((match old with
    | some (.list l) => l
    | _ => []) ++ args))

def stepTrue (_ : Option Val) (_ : List Str) : Option Val := some (.bool true)

theorem foldl_last {l : List (List Str)} (h : ∀ x ∈ l, x.length = 1) : ∀ d : Val,
    l.foldl stepLast (some d) = some (match l.getLast? with
      | some (s :: _) => .str s
      | _ => d) := by
  induction l with
  | nil => intro d; rfl
  | cons x l ih =>
    intro d
    match x, h x (by simp) with
    | [s], _ =>
      rw [List.foldl_cons, stepLast, ih fun y hy => h y (List.mem_cons_of_mem _ hy)]
      cases l with
      | nil => simp
      | cons y l =>
        obtain ⟨z, hz⟩ : ∃ z, (y :: l).getLast? = some z := ⟨_, List.getLast?_eq_some_getLast (by simp)⟩
        have hz2 := h z (List.mem_cons_of_mem _ (List.mem_of_getLast? hz))
        rw [List.getLast?_cons_cons, hz]
        match z, hz2 with
        | [z], _ => rfl

theorem foldl_all {l : List (List Str)} : ∀ m : List Str,
    l.foldl stepAll (some (.list m)) = some (Val.list (m ++ l.flatten)) := by
  induction l with
  | nil => intro m; simp
  | cons x l ih =>
    intro m
    have h : stepAll (some (.list m)) x = some (.list (m ++ x)) := rfl
    rw [List.foldl_cons, h, ih]
    simp

theorem foldl_count {l : List (List Str)} : ∀ n : Nat,
    l.foldl stepCount (some (.nat n)) = some (Val.nat (n + l.length)) := by
  induction l with
  | nil => intro m; simp
  | cons x l ih =>
    intro m
    have h : stepCount (some (.nat m)) x = some (.nat (m + 1)) := rfl
    rw [List.foldl_cons, h, ih]
    simp; omega

theorem foldl_true {l : List (List Str)} : ∀ old : Option Val,
    l.foldl stepTrue old = if l = [] then old else some (.bool true) := by
  induction l with
  | nil => intro m; simp
  | cons x l ih =>
    intro m
    rw [List.foldl_cons, ih]
    by_cases h : l = [] <;> simp [h, stepTrue]

/-! ### All scripts -/

section
variable [Uni]

theorem known_of {P : Parser} {os : List (Str × Nat)} (hos : ∀ o ∈ os, ∃ i, P.find o.1 = some i ∧ P.number i = o.2) {gs : List Given} (h : Options os gs) :
    Known P gs := by
  intro g hg
  obtain ⟨h1, h2⟩ := h g hg
  obtain ⟨i, h3, h4⟩ := hos _ h1
  exact ⟨i, h3, h4, h2⟩

/-- options, arguments that do not begin with `-`, and options -/
theorem parse_plain {P : Parser} (hP : P.Tidy) {os : List (Str × Nat)} (hos : ∀ o ∈ os, ∃ i, P.find o.1 = some i ∧ P.number i = o.2)
    {xs ys : List Given} (hx : Options os xs) (hy : Options os ys) {rest : List Str} (hr : ∀ a ∈ rest, a.head? ≠ some '-') {pacts}
    (hb : Block P (rest.map Tok.arg) pacts) :
    parseArgs P (xs.flatMap Given.write ++ (rest ++ ys.flatMap Given.write)) = final P ((said1 xs).map (idx P) ++ (pacts ++ (said1 ys).map (idx P))) := by
  have hky := known_of hos hy
  rw [← acts_said, ← acts_said]
  refine parse_block hP (known_of hos hx) hky ?_ hb
  obtain ⟨T, hT, _⟩ := line hP hky
  have h2 : classify P (ys.flatMap Given.write) = .ok T := by
    have := hT [] [] rfl
    simpa using this
  rw [h2]
  exact classify_args hr h2

/-- options, `--`, and any arguments -/
theorem parse_dashes {P : Parser} (hP : P.Tidy) {os : List (Str × Nat)} (hos : ∀ o ∈ os, ∃ i, P.find o.1 = some i ∧ P.number i = o.2)
    {xs : List Given} (hx : Options os xs) {rest : List Str} {pacts} (hb : Block P (.dashes :: rest.map Tok.arg) pacts) :
    parseArgs P (xs.flatMap Given.write ++ lit! "--" :: rest) = final P ((said1 xs).map (idx P) ++ pacts) := by
  have := parse_block hP (known_of hos hx) (ys := []) (by intro g hg; cases hg) (rest := lit! "--" :: rest) (block := .dashes :: rest.map Tok.arg) (pacts := pacts) (by
    simp [classify, bind, Except.bind]) hb
  rw [← acts_said]
  simpa using this

end

/-- the result if nothing clashes and nothing is missing -/
theorem final_ok {P : Parser} {xs ys : List Given} {pacts : List (Nat × List Str)}
    (hfx : ∀ x ∈ said1 (xs ++ ys), Fine P (idx P x)) (hfp : ∀ x ∈ pacts, Fine P x)
    (hc : ∀ i ∈ ((said1 (xs ++ ys)).map (idx P) ++ pacts).map Prod.fst, clash P (((said1 (xs ++ ys)).map (idx P) ++ pacts).map Prod.fst) i = false)
    (hm : ∀ a ∈ P.actions.zipIdx, a.1.must = true → a.2 ∈ ((said1 (xs ++ ys)).map (idx P) ++ pacts).map Prod.fst) :
    ∃ ns, final P ((said1 xs).map (idx P) ++ (pacts ++ (said1 ys).map (idx P))) = .ok ns ∧
      (∀ d, (∀ x ∈ pacts, ∀ old, eff P d old x = old) → ns.get? d = ((said1 (xs ++ ys)).map (idx P)).foldl (eff P d) (P.defaults.get? d)) ∧
      (∀ d, (∀ x ∈ said1 (xs ++ ys), ∀ old, eff P d old (idx P x) = old) → ns.get? d = pacts.foldl (eff P d) (P.defaults.get? d)) := by
  have hmem : ∀ i, i ∈ (((said1 xs).map (idx P) ++ (pacts ++ (said1 ys).map (idx P)))).map Prod.fst ↔ i ∈ ((said1 (xs ++ ys)).map (idx P) ++ pacts).map Prod.fst := by
    intro i
    simp only [said1_append, List.map_append, List.mem_append]
    constructor
    · rintro (h | h | h)
      · exact .inl (.inl h)
      · exact .inr h
      · exact .inl (.inr h)
    · rintro ((h | h) | h)
      · exact .inl h
      · exact .inr (.inr h)
      · exact .inr (.inl h)
  have hclash : ∀ {s1 s2 : List Nat} {i}, (∀ j, j ∈ s1 ↔ j ∈ s2) → clash P s1 i = clash P s2 i := by
    intro s1 s2 i h
    unfold clash
    simp only [h]
  obtain ⟨st, hst⟩ := takeAll_fine (P := P) (l := (said1 xs).map (idx P) ++ (pacts ++ (said1 ys).map (idx P))) (st := ⟨P.defaults, [], P.positionals, []⟩) (by
      intro x hx
      simp only [List.mem_append, List.mem_map] at hx
      rcases hx with ⟨y, hy, rfl⟩ | h | ⟨y, hy, rfl⟩
      · exact hfx y (by rw [said1_append]; exact List.mem_append_left _ hy)
      · exact hfp x h
      · exact hfx y (by rw [said1_append]; exact List.mem_append_right _ hy)) (by
      intro i hi
      rw [List.nil_append, hclash hmem]
      exact hc i ((hmem i).1 hi))
  obtain ⟨h1, h2⟩ := takeAll_eff hst
  have hskip : ∀ {l : List (Nat × List Str)} {d old}, (∀ x ∈ l, ∀ old, eff P d old x = old) → l.foldl (eff P d) old = old := by
    intro l d old h
    induction l generalizing old with
    | nil => rfl
    | cons x l ih => rw [List.foldl_cons, h x (by simp)]; exact ih fun y hy => h y (List.mem_cons_of_mem _ hy)
  refine ⟨st.ns, ?_, ?_, ?_⟩
  · unfold final
    rw [hst]
    show ended P st = _
    unfold ended
    rw [if_neg]
    intro h
    obtain ⟨a, ha, h⟩ := List.any_eq_true.1 h
    simp only [Bool.and_eq_true, Bool.not_eq_true', decide_eq_false_iff_not] at h
    apply h.2
    rw [h1]
    exact .inr ((hmem _).2 (hm a ha h.1))
  · intro d hd
    rw [h2, said1_append, List.foldl_append, List.foldl_append, List.map_append, List.foldl_append, hskip hd]
  · intro d hd
    have h3 : ∀ x ∈ (said1 xs).map (idx P), ∀ old, eff P d old x = old := by
      intro x hx old
      obtain ⟨y, hy, rfl⟩ := List.mem_map.1 hx
      exact hd y (by rw [said1_append]; exact List.mem_append_left _ hy) old
    have h4 : ∀ x ∈ (said1 ys).map (idx P), ∀ old, eff P d old x = old := by
      intro x hx old
      obtain ⟨y, hy, rfl⟩ := List.mem_map.1 hx
      exact hd y (by rw [said1_append]; exact List.mem_append_right _ hy) old
    rw [h2, List.foldl_append, List.foldl_append, hskip h3, hskip h4]

/-! ### The arguments besides options -/

theorem letters_args (l : List Str) : (l.map Tok.arg).map Tok.letter = List.replicate l.length 'A' := by
  induction l with
  | nil => rfl
  | cons a l ih => simp [Tok.letter, List.replicate_succ] at ih ⊢; exact ih

theorem letters_dashes {d : List Tok} (hd : d = [] ∨ d = [.dashes]) : (d.map Tok.letter = [] ∨ d.map Tok.letter = ['-']) ∧ ∀ b ∈ d, b.isOpt = false := by
  rcases hd with rfl | rfl
  · simp
  · simp [Tok.letter, Tok.isOpt]

theorem letters_stop {w : List Tok} (hw : w = [] ∨ ∃ s t w', w = .opt s t :: w') : (w.map Tok.letter).head? ≠ some 'A' ∧ (w.map Tok.letter).head? ≠ some '-' := by
  rcases hw with rfl | ⟨s, t, w', rfl⟩ <;> simp [Tok.letter]

theorem block_first {d : List Tok} (hd : d = [] ∨ d = [.dashes]) (f : Str) (fs : List Str) :
    ∃ b bs, d ++ Tok.arg f :: fs.map Tok.arg = b :: bs ∧ b.isOpt = false ∧ ∀ b ∈ bs, b.isOpt = false := by
  rcases hd with rfl | rfl
  · exact ⟨_, _, rfl, rfl, by simp [Tok.isOpt]⟩
  · exact ⟨_, _, rfl, rfl, by simp [Tok.isOpt]⟩

theorem block_one {P : Parser} {i : Nat} (hp : P.positionals = [i]) (hn : P.nargs i = .one) {f : Str} (d : List Tok) (hd : d = [] ∨ d = [.dashes]) :
    Block P (d ++ [Tok.arg f]) [(i, (d ++ [Tok.arg f]).map Tok.text)] := by
  refine .inr ⟨block_first hd f [], ?_⟩
  intro w st hw hs
  have hm : matchPartial [P.nargs i] ((d ++ [Tok.arg f] ++ w).map Tok.letter) 1 = [d.length + 1] := by
    have := match_one (letters_dashes hd).1 (letters_stop hw).2
    rw [hn]
    simpa [Tok.letter] using this
  have h4 : (d ++ [Tok.arg f] ++ w).take (d.length + 1) = d ++ [Tok.arg f] := List.take_left' (by simp)
  have h5 : (d ++ [Tok.arg f] ++ w).drop (d.length + 1) = w := List.drop_left' (by simp)
  unfold consumePositionals
  simp only [hs, hp, List.map_cons, List.map_nil, List.length_cons, List.length_nil, Nat.zero_add, hm, List.zip, List.zipWith, takePositionals, takeAll,
    List.drop_succ_cons, List.drop_zero]
  rw [h4, h5]
  simp only [bind, Except.bind]
  cases takeAction P { st with pos := [] } i ((d ++ [Tok.arg f]).map Tok.text) <;> rfl

theorem block_plus {P : Parser} {i : Nat} (hp : P.positionals = [i]) (hn : P.nargs i = .plus) {f : Str} {fs : List Str} (d : List Tok) (hd : d = [] ∨ d = [.dashes]) :
    Block P (d ++ (f :: fs).map Tok.arg) [(i, (d ++ (f :: fs).map Tok.arg).map Tok.text)] := by
  refine .inr ⟨block_first hd f fs, ?_⟩
  intro w st hw hs
  have hm : matchPartial [P.nargs i] ((d ++ (f :: fs).map Tok.arg ++ w).map Tok.letter) 1 = [d.length + (fs.length + 1)] := by
    have := match_plus (k := fs.length) (letters_dashes hd).1 (letters_stop hw)
    rw [hn, List.map_append, List.map_append, letters_args, List.length_cons, List.replicate_succ, List.append_assoc]
    simpa using this
  have h4 : (d ++ (f :: fs).map Tok.arg ++ w).take (d.length + (fs.length + 1)) = d ++ (f :: fs).map Tok.arg := List.take_left' (by simp)
  have h5 : (d ++ (f :: fs).map Tok.arg ++ w).drop (d.length + (fs.length + 1)) = w := List.drop_left' (by simp)
  unfold consumePositionals
  simp only [hs, hp]
  simp only [show [i].map P.nargs = [P.nargs i] from rfl, show [i].length = 1 from rfl, hm, List.length_cons, List.length_nil, Nat.zero_add, List.zip, List.zipWith, takePositionals, takeAll,
    List.drop_succ_cons, List.drop_zero]
  rw [h4, h5]
  simp only [bind, Except.bind]
  cases takeAction P { st with pos := [] } i ((d ++ (f :: fs).map Tok.arg).map Tok.text) <;> rfl

theorem block_one_star {P : Parser} {i j : Nat} (hp : P.positionals = [i, j]) (hn : P.nargs i = .one) (hj : P.nargs j = .star) {f : Str} {fs : List Str}
    (d : List Tok) (hd : d = [] ∨ d = [.dashes]) :
    Block P (d ++ (f :: fs).map Tok.arg) [(i, (d ++ [Tok.arg f]).map Tok.text), (j, fs)] := by
  refine .inr ⟨block_first hd f fs, ?_⟩
  intro w st hw hs
  have hm : matchPartial [P.nargs i, P.nargs j] ((d ++ (f :: fs).map Tok.arg ++ w).map Tok.letter) 2 = [d.length + 1, fs.length] := by
    have := match_one_star (k := fs.length) (letters_dashes hd).1 (letters_stop hw)
    rw [hn, hj, List.map_append, List.map_append, letters_args, List.length_cons, List.replicate_succ, List.append_assoc]
    simpa using this
  have h0 : d ++ (f :: fs).map Tok.arg ++ w = (d ++ [Tok.arg f]) ++ (fs.map Tok.arg ++ w) := by simp
  have h4 : (d ++ (f :: fs).map Tok.arg ++ w).take (d.length + 1) = d ++ [Tok.arg f] := by
    rw [h0]; exact List.take_left' (by simp)
  have h5 : (d ++ (f :: fs).map Tok.arg ++ w).drop (d.length + 1) = fs.map Tok.arg ++ w := by
    rw [h0]; exact List.drop_left' (by simp)
  have h6 : (fs.map Tok.arg ++ w).take fs.length = fs.map Tok.arg := List.take_left' (by simp)
  have h7 : (fs.map Tok.arg ++ w).drop fs.length = w := List.drop_left' (by simp)
  have h8 : (fs.map Tok.arg).map Tok.text = fs := by simp [Tok.text, Function.comp_def]
  unfold consumePositionals
  simp only [hs, hp]
  simp only [show [i, j].map P.nargs = [P.nargs i, P.nargs j] from rfl, show [i, j].length = 2 from rfl, hm, List.length_cons, List.length_nil, Nat.zero_add, List.zip, List.zipWith, takePositionals, takeAll,
    List.drop_succ_cons, List.drop_zero]
  rw [h4, h5, h6, h7, h8]
  simp only [bind, Except.bind]
  cases takeAction P { st with pos := [] } i ((d ++ [Tok.arg f]).map Tok.text) with
  | error e => rfl
  | ok st' =>
    simp only
    cases takeAction P st' j fs <;> rfl

/-! ### `xigt sort` -/

/-- the options of `xigt sort` with the numbers of their arguments (spec) -/
def sortOptions : List (Str × Nat) :=
  [(lit! "-v", 0), (lit! "--verbose", 0), (lit! "--in-place", 0), (lit! "--igt-key", 1), (lit! "--tier-key", 1), (lit! "--tier-deps", 1), (lit! "--item-key", 1)]

theorem length_one {l : List Str} (h : l.length = 1) : ∃ v, l = [v] := by
  match l, h with
  | [v], _ => exact ⟨v, rfl⟩

theorem sort_tidy : sortParser.Tidy := tidy_of_B (by decide)

theorem sort_known : ∀ o ∈ sortOptions, ∃ i, sortParser.find o.1 = some i ∧ sortParser.number i = o.2 := by
  intro o ho
  simp [sortOptions] at ho
  rcases ho with rfl | rfl | rfl | rfl | rfl | rfl | rfl <;> exact ⟨_, rfl, rfl⟩

theorem sort_cases {x : Str × List Str} (h : (x.1, x.2.length) ∈ sortOptions) :
    x = (lit! "-v", []) ∨ x = (lit! "--verbose", []) ∨ x = (lit! "--in-place", []) ∨ (∃ v, x = (lit! "--igt-key", [v])) ∨
    (∃ v, x = (lit! "--tier-key", [v])) ∨ (∃ v, x = (lit! "--tier-deps", [v])) ∨ ∃ v, x = (lit! "--item-key", [v]) := by
  obtain ⟨n, l⟩ := x
  simp only [sortOptions, List.mem_cons, Prod.mk.injEq, List.not_mem_nil, or_false] at h
  rcases h with ⟨rfl, h⟩ | ⟨rfl, h⟩ | ⟨rfl, h⟩ | ⟨rfl, h⟩ | ⟨rfl, h⟩ | ⟨rfl, h⟩ | ⟨rfl, h⟩
  · simp at h; simp [h]
  · simp at h; simp [h]
  · simp at h; simp [h]
  all_goals
    obtain ⟨v, rfl⟩ := length_one h
    simp

theorem sort_eff {x : Str × List Str} (h : (x.1, x.2.length) ∈ sortOptions) :
    Fine sortParser (idx sortParser x) ∧ (∀ old, eff sortParser (lit! "infile") old (idx sortParser x) = old) ∧
    (∀ old, eff sortParser (lit! "verbosity") old (idx sortParser x) = if x.1 ∈ [lit! "-v", lit! "--verbose"] then stepCount old x.2 else old) ∧
    (∀ old, eff sortParser (lit! "in_place") old (idx sortParser x) = if x.1 ∈ [lit! "--in-place"] then stepTrue old x.2 else old) ∧
    (∀ old, eff sortParser (lit! "igt_key") old (idx sortParser x) = if x.1 ∈ [lit! "--igt-key"] then stepAll old x.2 else old) ∧
    (∀ old, eff sortParser (lit! "tier_key") old (idx sortParser x) = if x.1 ∈ [lit! "--tier-key"] then stepAll old x.2 else old) ∧
    (∀ old, eff sortParser (lit! "tier_deps") old (idx sortParser x) = if x.1 ∈ [lit! "--tier-deps"] then stepLast old x.2 else old) ∧
    (∀ old, eff sortParser (lit! "item_key") old (idx sortParser x) = if x.1 ∈ [lit! "--item-key"] then stepAll old x.2 else old) := by
  rcases sort_cases h with rfl | rfl | rfl | ⟨v, rfl⟩ | ⟨v, rfl⟩ | ⟨v, rfl⟩ | ⟨v, rfl⟩
  · refine ⟨⟨_, _, rfl, rfl, by decide⟩, ?_, ?_, ?_, ?_, ?_, ?_, ?_⟩ <;> intro old <;> rfl
  · refine ⟨⟨_, _, rfl, rfl, by decide⟩, ?_, ?_, ?_, ?_, ?_, ?_, ?_⟩ <;> intro old <;> rfl
  · refine ⟨⟨_, _, rfl, rfl, by decide⟩, ?_, ?_, ?_, ?_, ?_, ?_, ?_⟩ <;> intro old <;> rfl
  · refine ⟨⟨_, _, rfl, rfl, by decide⟩, ?_, ?_, ?_, ?_, ?_, ?_, ?_⟩ <;> intro old <;> rfl
  · refine ⟨⟨_, _, rfl, rfl, by decide⟩, ?_, ?_, ?_, ?_, ?_, ?_, ?_⟩ <;> intro old <;> rfl
  · refine ⟨⟨_, _, rfl, rfl, by decide⟩, ?_, ?_, ?_, ?_, ?_, ?_, ?_⟩ <;> intro old <;> first | rfl | (simp; rfl)
  · refine ⟨⟨_, _, rfl, rfl, by decide⟩, ?_, ?_, ?_, ?_, ?_, ?_, ?_⟩ <;> intro old <;> rfl

/-- options of the same number -/
theorem sort_index {gs : List Given} (h : Options sortOptions gs) (n : Str) (i : Nat) (hi : (n, i) ∈ [(lit! "--tier-key", 5), (lit! "--tier-deps", 6)]) :
    i ∈ ((said1 gs).map (idx sortParser)).map Prod.fst ↔ argsOf [n] gs ≠ [] := by
  have hx : ∀ x : Str × List Str, (x.1, x.2.length) ∈ sortOptions → ((idx sortParser x).1 = i ↔ x.1 = n) := by
    intro x hx
    have h1 : ∀ n ∈ [(lit! "--tier-key", 5), (lit! "--tier-deps", 6)], ∀ o ∈ sortOptions, (sortParser.find o.1).getD 0 = n.2 ↔ o.1 = n.1 := by decide
    exact h1 _ hi _ hx
  unfold argsOf
  rw [List.map_map, List.mem_map, ne_eq, List.map_eq_nil_iff, List.filter_eq_nil_iff]
  constructor
  · rintro ⟨x, h1, h2⟩ h3
    exact h3 x h1 (by simp [(hx x (said1_mem h x h1)).1 h2])
  · intro h1
    refine Classical.byContradiction fun h2 => h1 fun x h3 h4 => h2 ⟨x, h3, ?_⟩
    exact (hx x (said1_mem h x h3)).2 (by simpa using h4)

theorem argsOf_length {os : List (Str × Nat)} {gs : List Given} (h : Options os gs) {n : Str} (hn : ∀ k, (n, k) ∈ os → k = 1) : ∀ x ∈ argsOf [n] gs, x.length = 1 := by
  intro x hx
  obtain ⟨y, hy, rfl⟩ := List.mem_map.1 hx
  rw [List.mem_filter] at hy
  have h1 := said1_mem h y hy.1
  have h2 : y.1 = n := by simpa using hy.2
  rw [h2] at h1
  exact hn _ h1

/-- what `xigt sort` receives, or that the options exclude each other -/
def SortReceives (r : Run (Dict Str Val)) (gs : List Given) (infile : Str) : Prop :=
  (argsOf [lit! "--tier-key"] gs ≠ [] ∧ argsOf [lit! "--tier-deps"] gs ≠ [] → r = .error .usage) ∧
  (¬ (argsOf [lit! "--tier-key"] gs ≠ [] ∧ argsOf [lit! "--tier-deps"] gs ≠ []) → ∃ ns, r = .ok ns ∧
    Dict.get? ns (lit! "infile") = some (.str infile) ∧
    Dict.get? ns (lit! "verbosity") = some (.nat (2 + (argsOf [lit! "-v", lit! "--verbose"] gs).length)) ∧
    Dict.get? ns (lit! "in_place") = some (.bool (decide (argsOf [lit! "--in-place"] gs ≠ []))) ∧
    Dict.get? ns (lit! "igt_key") = some (allOf [lit! "--igt-key"] gs) ∧
    Dict.get? ns (lit! "tier_key") = some (allOf [lit! "--tier-key"] gs) ∧
    Dict.get? ns (lit! "tier_deps") = some (lastOf .none [lit! "--tier-deps"] gs) ∧
    Dict.get? ns (lit! "item_key") = some (allOf [lit! "--item-key"] gs))

theorem foldl_keys {l : List (List Str)} : l.foldl stepAll (some Val.none) = some (match l with
      | [] => Val.none
      | l => .list l.flatten) := by
  cases l with
  | nil => rfl
  | cons x l =>
    have h : stepAll (some Val.none) x = some (.list x) := rfl
    rw [List.foldl_cons, h, foldl_all]
    simp

theorem sort_final {xs ys : List Given} (hx : Options sortOptions xs) (hy : Options sortOptions ys) {infile : Str} {args : List Str}
    (ha : args.erase (lit! "--") = [infile]) :
    SortReceives (final sortParser ((said1 xs).map (idx sortParser) ++ ([(2, args)] ++ (said1 ys).map (idx sortParser)))) (xs ++ ys) infile := by
  have hxy : Options sortOptions (xs ++ ys) := by
    intro g hg
    rcases List.mem_append.1 hg with h | h
    · exact hx g h
    · exact hy g h
  have heff := fun x hx => sort_eff (said1_mem hxy x hx)
  have hval : getValues { dest := lit! "infile" } args = .ok (.one infile) := by
    simp [getValues, ha]
  have hfp : Fine sortParser (2, args) := ⟨_, _, rfl, hval, by decide⟩
  have hpe : ∀ d old, eff sortParser d old (2, args) = if lit! "infile" = d then some (.str infile) else old := by
    intro d old
    have h1 : sortParser.actions[2]? = some { dest := lit! "infile" } := rfl
    unfold eff
    simp only [h1, hval]
    rfl
  constructor
  · rintro ⟨h1, h2⟩
    rw [← sort_index hxy _ 5 (by simp)] at h1
    rw [← sort_index hxy _ 6 (by simp)] at h2
    unfold final
    have hmem : ∀ i, i ∈ ((said1 (xs ++ ys)).map (idx sortParser)).map Prod.fst →
        i ∈ (((said1 xs).map (idx sortParser) ++ ([(2, args)] ++ (said1 ys).map (idx sortParser)))).map Prod.fst := by
      intro i hi
      simp only [said1_append, List.map_append, List.mem_append] at hi ⊢
      rcases hi with h | h
      · exact .inl h
      · exact .inr (.inr h)
    have := takeAll_clash (P := sortParser) (i := 5) (j := 6) (l := (said1 xs).map (idx sortParser) ++ ([(2, args)] ++ (said1 ys).map (idx sortParser)))
      (fun seen h => by simp [clash, sortParser, h]) (fun seen h => by simp [clash, sortParser, h]) (st := ⟨sortParser.defaults, [], sortParser.positionals, []⟩) (by
        intro x hx
        simp only [List.mem_append, List.mem_map, List.mem_singleton] at hx
        rcases hx with ⟨y, hy, rfl⟩ | rfl | ⟨y, hy, rfl⟩
        · exact (heff y (by rw [said1_append]; exact List.mem_append_left _ hy)).1
        · exact hfp
        · exact (heff y (by rw [said1_append]; exact List.mem_append_right _ hy)).1) (.inr (hmem _ h1)) (.inr (hmem _ h2)) (by simp) (by decide)
    rw [this]
    rfl
  · intro hno
    rw [← sort_index hxy _ 5 (by simp), ← sort_index hxy _ 6 (by simp)] at hno
    obtain ⟨ns, h1, h2, h3⟩ := final_ok (P := sortParser) (xs := xs) (ys := ys) (pacts := [(2, args)]) (fun x hx => (heff x hx).1) (by simpa using hfp) (by
        intro i _
        have h56 : ∀ j, j = 5 ∨ j = 6 → (j ∈ ((said1 (xs ++ ys)).map (idx sortParser) ++ [(2, args)]).map Prod.fst ↔ j ∈ ((said1 (xs ++ ys)).map (idx sortParser)).map Prod.fst) := by
          intro j hj
          rw [List.map_append, List.mem_append]
          constructor
          · rintro (h | h)
            · exact h
            · simp at h; omega
          · exact .inl
        have hi' := ‹i ∈ _›
        cases hc : clash sortParser (((said1 (xs ++ ys)).map (idx sortParser) ++ [(2, args)]).map Prod.fst) i with
        | false => rfl
        | true =>
          exfalso
          have hg : sortParser.groups = [[5, 6]] := rfl
          unfold clash at hc
          rw [hg] at hc
          simp only [List.any_cons, List.any_nil, Bool.or_false, Bool.and_eq_true, decide_eq_true_eq, List.mem_cons, List.not_mem_nil, or_false, Bool.or_eq_true] at hc
          obtain ⟨h5, h6⟩ := hc
          rcases h5 with rfl | rfl
          · rcases h6 with ⟨h, _⟩ | ⟨_, h⟩
            · exact h rfl
            · exact hno ⟨(h56 5 (.inl rfl)).1 hi', (h56 6 (.inr rfl)).1 h⟩
          · rcases h6 with ⟨_, h⟩ | ⟨h, _⟩
            · exact hno ⟨(h56 5 (.inl rfl)).1 h, (h56 6 (.inr rfl)).1 hi'⟩
            · exact h rfl) (by
        intro a ha hm
        have : a.2 = 2 := by
          simp only [sortParser, List.zipIdx, List.mem_cons, List.not_mem_nil, or_false] at ha
          rcases ha with rfl | rfl | rfl | rfl | rfl | rfl | rfl | rfl <;> first | rfl | cases hm
        rw [this]
        simp)
    have hfold : ∀ d (names : List Str) F, lit! "infile" ≠ d → (∀ x ∈ said1 (xs ++ ys), ∀ old, eff sortParser d old (idx sortParser x) = if x.1 ∈ names then F old x.2 else old) →
        ns.get? d = (argsOf names (xs ++ ys)).foldl F (sortParser.defaults.get? d) := by
      intro d names F hd h
      rw [h2 d (by simp [hpe, hd]), fold_said h]
      rfl
    refine ⟨ns, h1, ?_, ?_, ?_, ?_, ?_, ?_, ?_⟩
    · rw [h3 _ fun x hx => (heff x hx).2.1]
      simp [hpe]
    · rw [hfold _ [lit! "-v", lit! "--verbose"] stepCount (by decide) fun x hx => (heff x hx).2.2.1]
      exact foldl_count 2
    · rw [hfold _ [lit! "--in-place"] stepTrue (by decide) fun x hx => (heff x hx).2.2.2.1, foldl_true]
      by_cases h : argsOf [lit! "--in-place"] (xs ++ ys) = []
      · rw [if_pos h]; simp [h]; rfl
      · rw [if_neg h]; simp [h]
    · rw [hfold _ [lit! "--igt-key"] stepAll (by decide) fun x hx => (heff x hx).2.2.2.2.1]
      exact foldl_keys
    · rw [hfold _ [lit! "--tier-key"] stepAll (by decide) fun x hx => (heff x hx).2.2.2.2.2.1]
      exact foldl_keys
    · rw [hfold _ [lit! "--tier-deps"] stepLast (by decide) fun x hx => (heff x hx).2.2.2.2.2.2.1]
      exact foldl_last (argsOf_length hxy (by simp [sortOptions])) .none
    · rw [hfold _ [lit! "--item-key"] stepAll (by decide) fun x hx => (heff x hx).2.2.2.2.2.2.2]
      exact foldl_keys

section
variable [Uni]

/-- C153, `xigt sort`: the file between options, or after options and `--` -/
theorem C153_sort (xs ys : List Given) (hx : Options sortOptions xs) (hy : Options sortOptions ys) (infile : Str) :
    (infile.head? ≠ some '-' → SortReceives (parseArgs sortParser (xs.flatMap Given.write ++ infile :: ys.flatMap Given.write)) (xs ++ ys) infile) ∧
    SortReceives (parseArgs sortParser (xs.flatMap Given.write ++ [lit! "--", infile])) xs infile := by
  constructor
  · intro hf
    have h := parse_plain sort_tidy sort_known hx hy (rest := [infile]) (by simpa using hf) (block_one (i := 2) rfl rfl [] (.inl rfl))
    rw [List.singleton_append] at h
    rw [h]
    refine sort_final hx hy ?_
    have : infile ≠ lit! "--" := by rintro rfl; exact hf rfl
    simp [Tok.text, List.erase_cons, this]
  · have h := parse_dashes sort_tidy sort_known hx (rest := [infile]) (block_one (i := 2) rfl rfl [.dashes] (.inr rfl))
    rw [h]
    have := sort_final hx (ys := []) (by intro g hg; cases hg) (infile := infile) (args := ([Tok.dashes] ++ [Tok.arg infile]).map Tok.text) (by simp [Tok.text])
    simpa [said1] using this

end
end Xigt.Cmd
