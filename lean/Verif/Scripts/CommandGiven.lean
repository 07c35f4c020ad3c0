import Verif.Scripts.CommandLemmas
/-
Command lines that are written with options in their full names: what argparse takes from them (for C153 to C155).
-/

set_option linter.unusedSectionVars false

namespace Xigt.Cmd

/-- how an option is written on a command line (spec) -/
inductive Form where
  /-- the option, and its arguments after it: `-f Q`, `--find Q` -/
  | apart
  /-- `--find=Q`, `-f=Q` -/
  | eq
  /-- `-fQ` -/
  | glued
  /-- `-vvv`: the option and `n` times more its letter -/
  | more (n : Nat)

/-- an option on a command line with its arguments (spec) -/
structure Given where
  name : Str
  args : List Str := []
  form : Form := .apart

/-- the arguments that it stands for -/
def Given.write (g : Given) : List Str :=
  match g.form with
  | .apart => g.name :: g.args
  | .eq => [g.name ++ '=' :: g.args.flatten]
  | .glued => [g.name ++ g.args.flatten]
  | .more n => [g.name ++ List.replicate n (g.name.getLastD ' ')]

/-- how often the option is given -/
def Given.times (g : Given) : Nat :=
  match g.form with
  | .more n => n + 1
  | _ => 1

/-- that it is written well: values that stand alone do not begin with `-`, one that follows the letter of an option is not
empty and does not begin with `=`; only letters that take no argument are repeated -/
def Given.Well (g : Given) : Prop :=
  match g.form with
  | .apart => ∀ a ∈ g.args, a.head? ≠ some '-'
  | .eq => g.args.length = 1
  | .glued => g.name.length = 2 ∧ g.args.length = 1 ∧ g.args ≠ [[]] ∧ g.args.flatten.head? ≠ some '='
  | .more _ => g.name.length = 2 ∧ g.args = []

/-- the options of a parser are letters after `-` or words after `--`, without `=`, and all different -/
def Parser.Tidy (P : Parser) : Prop :=
  (∀ o ∈ P.table, (∃ c, o.1 = ['-', c] ∧ c ≠ '-' ∧ c ≠ '=') ∨ ∃ r, o.1 = '-' :: '-' :: r ∧ r ≠ [] ∧ '=' ∉ r) ∧ (P.table.map Prod.fst).Nodup

def tidyOption : Str → Bool
  | ['-', c] => decide (c ≠ '-' ∧ c ≠ '=')
  | '-' :: '-' :: c :: r => decide ('=' ∉ c :: r)
  | _ => false

theorem tidy_of_B {P : Parser} (h : (P.table.all fun o => tidyOption o.1) = true ∧ (P.table.map Prod.fst).Nodup) : P.Tidy := by
  refine ⟨?_, h.2⟩
  intro o ho
  have := List.all_eq_true.1 h.1 o ho
  unfold tidyOption at this
  split at this
  · rename_i c hc
    left; exact ⟨c, hc, by simpa using this⟩
  · rename_i c r hc
    right; exact ⟨c :: r, hc, by simp, by simpa using this⟩
  · cases this

theorem find_mem {P : Parser} {s : Str} {i} (h : P.find s = some i) : (s, i) ∈ P.table := by
  unfold Parser.find at h
  obtain ⟨p, hp, rfl⟩ := Option.map_eq_some_iff.1 h
  have h1 := List.mem_of_find?_eq_some hp
  have h2 := List.find?_some hp
  simp at h2
  rw [← h2]
  exact h1

theorem tidy_find {P : Parser} (hP : P.Tidy) {s : Str} {i} (h : P.find s = some i) :
    (∃ c, s = ['-', c] ∧ c ≠ '-' ∧ c ≠ '=') ∨ ∃ r, s = '-' :: '-' :: r ∧ r ≠ [] ∧ '=' ∉ r := hP.1 _ (find_mem h)

theorem tidy_noeq {P : Parser} (hP : P.Tidy) {s : Str} {i} (h : P.find s = some i) : '=' ∉ s ∧ s.head? = some '-' ∧ s ≠ lit! "--" := by
  rcases tidy_find hP h with ⟨c, rfl, h1, h2⟩ | ⟨r, rfl, h1, h2⟩
  · simp [h1, Ne.symm h2]
  · simp [h1, h2]

theorem partitionEq_noeq {s v : Str} (h : '=' ∉ s) : partitionEq (s ++ '=' :: v) = (s, some v) := by
  induction s with
  | nil => simp [partitionEq]
  | cons c s ih =>
    simp at h
    simp [partitionEq, ih h.2, Ne.symm h.1]

section
variable [Uni]

theorem optional_plain {P : Parser} {s : Str} (h : s.head? ≠ some '-') : parseOptional P s = .ok none := by
  unfold parseOptional
  rw [if_pos h]

theorem optional_name {P : Parser} (hP : P.Tidy) {s : Str} {i} (h : P.find s = some i) : parseOptional P s = .ok (some ⟨some i, s, none, none⟩) := by
  unfold parseOptional
  rw [if_neg (by simp [(tidy_noeq hP h).2.1]), h]

theorem optional_eq {P : Parser} (hP : P.Tidy) {s v : Str} {i} (h : P.find s = some i) :
    parseOptional P (s ++ '=' :: v) = .ok (some ⟨some i, s, some (lit! "="), some v⟩) := by
  have hs := tidy_noeq hP h
  unfold parseOptional
  have h1 : (s ++ '=' :: v).head? = some '-' := by
    cases s with
    | nil => simp at hs
    | cons c s => simpa using hs.2.1
  rw [if_neg (by simp [h1])]
  have h2 : P.find (s ++ '=' :: v) = none := by
    cases hf : P.find (s ++ '=' :: v) with
    | none => rfl
    | some j => exact absurd (by simp) (tidy_noeq hP hf).1
  have h3 : ¬ (s ++ '=' :: v).length = 1 := by
    cases s with
    | nil => simp at hs
    | cons c s => simp
  rw [h2]
  simp only [if_neg h3, partitionEq_noeq hs.1, h, Option.bind_some, Option.map_some]

theorem filterMap_one {α β : Type} {l : List α} {f : α → Option β} {a : α} {b : β} (hn : l.Nodup) (ha : a ∈ l) (hb : f a = some b)
    (h : ∀ x ∈ l, x ≠ a → f x = none) : l.filterMap f = [b] := by
  induction l with
  | nil => cases ha
  | cons x l ih =>
    rw [List.nodup_cons] at hn
    by_cases hx : x = a
    · subst hx
      rw [List.filterMap_cons, hb]
      have : l.filterMap f = [] := by
        rw [List.filterMap_eq_nil_iff]
        intro y hy
        exact h y (List.mem_cons_of_mem _ hy) (fun e => hn.1 (e ▸ hy))
      simp [this]
    · rw [List.filterMap_cons, h x (by simp) hx]
      exact ih hn.2 ((List.mem_cons.1 ha).resolve_left (Ne.symm hx)) fun y hy => h y (List.mem_cons_of_mem _ hy)

theorem nodup_map {α β : Type} {f : α → β} {l : List α} (h : (l.map f).Nodup) : l.Nodup ∧ ∀ a ∈ l, ∀ b ∈ l, f a = f b → a = b := by
  induction l with
  | nil => exact ⟨List.nodup_nil, by simp⟩
  | cons x l ih =>
    rw [List.map_cons, List.nodup_cons] at h
    obtain ⟨h1, h2⟩ := h
    have ih := ih h2
    refine ⟨List.nodup_cons.2 ⟨fun hx => h1 (List.mem_map_of_mem hx), ih.1⟩, ?_⟩
    intro a ha b hb he
    rcases List.mem_cons.1 ha with ha' | ha'
    · rcases List.mem_cons.1 hb with hb' | hb'
      · rw [ha', hb']
      · exact absurd (by rw [← ha', he]; exact List.mem_map_of_mem hb') h1
    · rcases List.mem_cons.1 hb with hb' | hb'
      · exact absurd (by rw [← hb', ← he]; exact List.mem_map_of_mem ha') h1
      · exact ih.2 a ha' b hb' he

theorem optional_glued {P : Parser} (hP : P.Tidy) {c x : Char} {e : Str} {i} (h : P.find ['-', c] = some i) (hx : x ≠ '=') :
    parseOptional P ('-' :: c :: x :: e) = .ok (some ⟨some i, ['-', c], some [], some (x :: e)⟩) := by
  have hs := tidy_noeq hP h
  have hc : c ≠ '-' := by
    rintro rfl
    exact hs.2.2 rfl
  have hce : c ≠ '=' := by
    rintro rfl
    exact hs.1 (by simp)
  have hno : ∀ x e, P.find ('-' :: c :: x :: e) = none := by
    intro x e
    cases hf : P.find ('-' :: c :: x :: e) with
    | none => rfl
    | some j =>
      rcases tidy_find hP hf with ⟨c', h1, _⟩ | ⟨r, h1, _⟩
      · simp at h1
      · simp at h1; exact absurd h1.1 hc
  unfold parseOptional
  rw [if_neg (by simp), hno]
  have h3 : ¬ ('-' :: c :: x :: e).length = 1 := by simp
  have h4 : P.find (partitionEq ('-' :: c :: x :: e)).1 = none := by
    simp only [partitionEq, if_neg hce, if_neg hx]
    exact hno _ _
  simp only [if_neg h3, h4, Option.map_none, Option.bind_fun_none]
  have h5 : optionTuples P ('-' :: c :: x :: e) = [⟨some i, ['-', c], some [], some (x :: e)⟩] := by
    unfold optionTuples
    have h6 : (lit! "--").isPrefixOf ('-' :: c :: x :: e) = false := by
      simp [List.isPrefixOf, Ne.symm hc]
    simp only [h6, Bool.false_eq_true, if_false]
    refine filterMap_one (a := (['-', c], i)) ?_ (find_mem h) (by simp) ?_
    · exact (nodup_map hP.2).1
    · intro o ho hne
      have hname : ¬ o.1 = ['-', c] := by
        intro ho1
        apply hne
        have := (nodup_map hP.2).2 _ ho _ (find_mem h) ho1
        exact this
      rw [if_neg (by simpa using hname)]
      have : ('-' :: c :: x :: e).isPrefixOf o.1 = false := by
        rcases hP.1 o ho with ⟨c', h1, _⟩ | ⟨r, h1, _⟩
        · rw [h1]; simp [List.isPrefixOf]
        · rw [h1]; simp [List.isPrefixOf, hc]
      simp [this]
  rw [h5]

/-! ### One option -/

theorem takeAll_append {P : Parser} (l m : List (Nat × List Str)) : ∀ st, takeAll P st (l ++ m) = takeAll P st l >>= fun st => takeAll P st m := by
  induction l with
  | nil => intro st; rfl
  | cons a l ih =>
    intro st
    obtain ⟨i, args⟩ := a
    simp only [List.cons_append, takeAll]
    cases takeAction P st i args with
    | error e => rfl
    | ok st' => exact ih st'

theorem takeArgs_all (args : List Str) (tr : List Tok) : takeArgs args.length (args.map Tok.arg ++ tr) = some (args, tr) := by
  induction args with
  | nil => rfl
  | cons a args ih => simp [takeArgs, ih]

theorem glued_more {P : Parser} {c : Char} {i : Nat} (hi : P.find ['-', c] = some i) (hn : P.number i = 0) (hc : c ≠ '-') (hce : c ≠ '=') :
    ∀ n, glued P i false false (List.replicate (n + 1) c) = .ok ⟨List.replicate (n + 1) (i, []), some i, none⟩ := by
  intro n
  induction n with
  | zero =>
    simp only [List.replicate, glued, hn, hi]
    simp [hc]
  | succ n ih =>
    rw [List.replicate_succ]
    have h1 : List.replicate (n + 1) c = c :: List.replicate n c := List.replicate_succ
    rw [h1] at ih ⊢
    unfold glued
    simp only [hn, hi]
    have h0 : ¬ (0 = 1) := by decide
    simp only [if_neg h0, Bool.false_eq_true, or_self, if_false, hc, ne_eq, not_true]
    rw [ih]
    rfl

/-- what an option on the command line is taken for: its tokens, and the actions -/
def Taken (P : Parser) (ws : List Str) (acts : List (Nat × List Str)) : Prop :=
  ∃ s t ts, (∀ rest tr, classify P rest = .ok tr → classify P (ws ++ rest) = .ok (.opt s t :: (ts ++ tr))) ∧
    ∀ st tr, consumeOptional P st s t (ts ++ tr) = takeAll P st acts >>= fun st => .ok (st, tr)

theorem classify_opt {P : Parser} {s : Str} {t} (hs : s ≠ lit! "--") (h : parseOptional P s = .ok (some t)) {rest tr} (hr : classify P rest = .ok tr) :
    classify P (s :: rest) = .ok (.opt s t :: tr) := by
  unfold classify
  rw [if_neg hs, h, hr]
  rfl

theorem classify_args {P : Parser} {args : List Str} (ha : ∀ a ∈ args, a.head? ≠ some '-') {rest tr} (hr : classify P rest = .ok tr) :
    classify P (args ++ rest) = .ok (args.map Tok.arg ++ tr) := by
  induction args with
  | nil => exact hr
  | cons a args ih =>
    have h := ih fun b hb => ha b (List.mem_cons_of_mem _ hb)
    have h1 := ha a (by simp)
    rw [List.cons_append]
    unfold classify
    rw [if_neg (by rintro rfl; exact h1 rfl), optional_plain h1, h]
    rfl

theorem taken_apart {P : Parser} (hP : P.Tidy) {name : Str} {args i} (hi : P.find name = some i) (hn : P.number i = args.length)
    (ha : ∀ a ∈ args, a.head? ≠ some '-') : Taken P (name :: args) [(i, args)] := by
  refine ⟨name, ⟨some i, name, none, none⟩, args.map Tok.arg, ?_, ?_⟩
  · intro rest tr hr
    exact classify_opt (tidy_noeq hP hi).2.2 (optional_name hP hi) (classify_args ha hr)
  · intro st tr
    simp only [consumeOptional, said, bind, Except.bind, hn, takeArgs_all, List.nil_append]
    rfl

theorem taken_value {P : Parser} {s : Str} {t : OptTuple} {i v} (hs : s ≠ lit! "--") (ho : parseOptional P s = .ok (some t)) (ha : t.action = some i)
    (hv : t.arg = some v) (hn : P.number i = 1) : Taken P [s] [(i, [v])] := by
  refine ⟨s, t, [], ?_, ?_⟩
  · intro rest tr hr
    exact classify_opt hs ho hr
  · intro st tr
    have hg : said P t i = .ok ⟨[(i, [v])], none, none⟩ := by
      unfold said
      rw [hv]
      cases v <;> simp [glued, hn]
    simp only [consumeOptional, ha, hg, bind, Except.bind, List.nil_append, Option.toList, List.append_nil]
    rfl

/-- the action of an option with its arguments, as often as it is given -/
def Given.acts (P : Parser) (g : Given) : List (Nat × List Str) := List.replicate g.times ((P.find g.name).getD 0, g.args)

theorem taken_given {P : Parser} (hP : P.Tidy) {g : Given} {i} (hi : P.find g.name = some i) (hn : P.number i = g.args.length) (hw : g.Well) :
    Taken P g.write (g.acts P) := by
  obtain ⟨name, args, form⟩ := g
  simp only at hi hn
  unfold Given.acts
  simp only [hi, Option.getD_some]
  cases form with
  | apart => exact taken_apart hP hi hn hw
  | eq =>
    match args, hw with
    | [v], _ =>
      refine taken_value (t := ⟨some i, name, some (lit! "="), some v⟩) ?_ ?_ rfl rfl hn
      · intro h
        have : '=' ∈ lit! "--" := by rw [← h]; simp
        revert this; decide
      · simpa using optional_eq hP hi
  | glued =>
    match args, hw with
    | [v], hw =>
      obtain ⟨h1, _, h2, h3⟩ := hw
      simp only at h1 h2 h3
      rcases tidy_find hP hi with ⟨c, rfl, hc⟩ | ⟨r, rfl, hr, _⟩
      · match v, h2, h3 with
        | x :: v, _, h3 =>
          refine taken_value (t := ⟨some i, ['-', c], some [], some (x :: v)⟩) (by simp) ?_ rfl rfl hn
          have := optional_glued hP hi (x := x) (e := v) (by simpa using h3)
          simpa using this
      · simp at h1
        exact absurd h1 hr
  | more n =>
    obtain ⟨h1, h2⟩ := hw
    simp only at h1 h2
    subst h2
    cases n with
    | zero =>
      have := taken_apart hP hi hn (by simp)
      simpa [Given.write, Given.times] using this
    | succ n =>
      rcases tidy_find hP hi with ⟨c, rfl, hc, hce⟩ | ⟨r, rfl, hr, _⟩
      · refine ⟨'-' :: c :: List.replicate (n + 1) c, ⟨some i, ['-', c], some [], some (List.replicate (n + 1) c)⟩, [], ?_, ?_⟩
        · intro rest tr hr
          have h4 := optional_glued hP hi (x := c) (e := List.replicate n c) hce
          rw [← List.replicate_succ] at h4
          refine classify_opt ?_ h4 hr
          simp [List.replicate_succ]
        · intro st tr
          have hg : said P ⟨some i, ['-', c], some [], some (List.replicate (n + 1) c)⟩ i = .ok ⟨List.replicate (n + 1) (i, []), some i, none⟩ := by
            unfold said
            have h5 : (lit! "--").isPrefixOf ['-', c] = false := by simp [List.isPrefixOf, Ne.symm hc]
            have h6 : decide (some ([] : Str) = some (lit! "=")) = false := by decide
            simp only [h5, h6]
            exact glued_more hi hn hc hce n
          have h7 : List.replicate (n + 1) (i, ([] : List Str)) ++ [(i, [])] = List.replicate (n + 1 + 1) (i, []) := by
            rw [List.replicate_succ' (n := n + 1)]
          simp only [consumeOptional, hg, bind, Except.bind, hn, List.length_nil, takeArgs, List.nil_append, h7]
          rfl
      · simp at h1
        exact absurd h1 hr

/-! ### A line of options -/

/-- the options are those of the parser, with the right numbers of arguments, and well written -/
def Known (P : Parser) (gs : List Given) : Prop := ∀ g ∈ gs, ∃ i, P.find g.name = some i ∧ P.number i = g.args.length ∧ g.Well

theorem optionLoop_opt {P : Parser} (fuel : Nat) (st : St) (s : Str) (t : OptTuple) (ts : List Tok) :
    optionLoop P (fuel + 1) st (.opt s t :: ts) = consumeOptional P st s t ts >>= fun r => optionLoop P fuel r.1 r.2 := by
  rw [optionLoop, if_pos (by simp [Tok.isOpt])]

theorem line {P : Parser} (hP : P.Tidy) {gs : List Given} (h : Known P gs) : ∃ T : List Tok,
    (∀ rest tr, classify P rest = .ok tr → classify P (gs.flatMap Given.write ++ rest) = .ok (T ++ tr)) ∧
    (T = [] ∧ gs = [] ∨ ∃ s t T', T = .opt s t :: T') ∧
    ∀ tr fuel st, (T ++ tr).length ≤ fuel → ∃ fuel', tr.length ≤ fuel' ∧
      optionLoop P fuel st (T ++ tr) = takeAll P st (gs.flatMap (Given.acts P)) >>= fun st => optionLoop P fuel' st tr := by
  induction gs with
  | nil =>
    refine ⟨[], ?_, .inl ⟨rfl, rfl⟩, ?_⟩
    · intro rest tr hr; exact hr
    · intro tr fuel st hf
      exact ⟨fuel, hf, rfl⟩
  | cons g gs ih =>
    obtain ⟨T, hT, _, hL⟩ := ih fun x hx => h x (List.mem_cons_of_mem _ hx)
    obtain ⟨i, hi, hn, hw⟩ := h g (by simp)
    obtain ⟨s, t, ts, h1, h2⟩ := taken_given hP hi hn hw
    refine ⟨.opt s t :: (ts ++ T), ?_, .inr ⟨_, _, _, rfl⟩, ?_⟩
    · intro rest tr hr
      have := h1 _ _ (hT rest tr hr)
      simpa using this
    · intro tr fuel st hf
      match fuel, hf with
      | fuel + 1, hf =>
        simp only [List.cons_append, List.length_cons, List.append_assoc, List.length_append] at hf
        simp only [List.flatMap_cons, takeAll_append, List.cons_append, List.append_assoc]
        simp only [optionLoop_opt, h2]
        cases takeAll P st (g.acts P) with
        | error e => exact ⟨tr.length, Nat.le_refl _, rfl⟩
        | ok st' =>
          obtain ⟨fuel', hf', hl⟩ := hL tr fuel st' (by simp; omega)
          exact ⟨fuel', hf', hl⟩

theorem takeAction_pos {P : Parser} (st : St) (p : List Nat) (i : Nat) (args : List Str) :
    takeAction P { st with pos := p } i args = takeAction P st i args >>= fun s => .ok { s with pos := p } := by
  unfold takeAction
  split
  · rfl
  · rename_i a _
    cases getValues a args with
    | error e => rfl
    | ok v =>
      simp only [bind, Except.bind]
      split
      · rfl
      · cases act a v st.ns with
        | error e => rfl
        | ok ns => rfl

theorem takeAll_pos {P : Parser} (p : List Nat) (l : List (Nat × List Str)) : ∀ st : St,
    takeAll P { st with pos := p } l = takeAll P st l >>= fun s => .ok { s with pos := p } := by
  induction l with
  | nil => intro st; rfl
  | cons a l ih =>
    intro st
    obtain ⟨i, args⟩ := a
    simp only [takeAll, takeAction_pos]
    cases takeAction P st i args with
    | error e => rfl
    | ok st' => exact ih st'

theorem takeAction_keeps {P : Parser} {st st' : St} {i args} (h : takeAction P st i args = .ok st') : st'.pos = st.pos := by
  unfold takeAction at h
  split at h
  · cases h
  · obtain ⟨v, _, h⟩ := run_ok h
    split at h
    · cases h
    · obtain ⟨ns, _, h⟩ := run_ok h
      cases h
      rfl

theorem takeAll_keeps {P : Parser} {l} : ∀ {st st' : St}, takeAll P st l = .ok st' → st'.pos = st.pos := by
  induction l with
  | nil => intro st st' h; cases h; rfl
  | cons a l ih =>
    intro st st' h
    obtain ⟨i, args⟩ := a
    obtain ⟨s1, h1, h⟩ := run_ok h
    rw [ih h, takeAction_keeps h1]

/-- all that is required is there -/
def ended (P : Parser) (st : St) : Run (Dict Str Val) :=
  if P.actions.zipIdx.any fun a => a.1.must && !decide (a.2 ∈ st.seen) then .error .usage else .ok st.ns

/-- what the actions come to -/
def final (P : Parser) (acts : List (Nat × List Str)) : Run (Dict Str Val) := takeAll P ⟨P.defaults, [], P.positionals, []⟩ acts >>= ended P

/-- the arguments are all that the parser takes besides options, and are taken so -/
def Block (P : Parser) (block : List Tok) (pacts : List (Nat × List Str)) : Prop :=
  (block = [] ∧ P.positionals = [] ∧ pacts = []) ∨
  ((∃ b bs, block = b :: bs ∧ b.isOpt = false ∧ ∀ b ∈ bs, b.isOpt = false) ∧
    ∀ (w : List Tok) (st : St), (w = [] ∨ ∃ s t w', w = .opt s t :: w') → st.pos = P.positionals →
      consumePositionals P st (block ++ w) = takeAll P { st with pos := [] } pacts >>= fun st => .ok (st, w))

theorem optionLoop_none {P : Parser} {ts : List Tok} (h : ts.any Tok.isOpt = false) (fuel st) : optionLoop P fuel st ts = .ok (st, ts) := by
  cases fuel with
  | zero => rfl
  | succ fuel => unfold optionLoop; rw [if_neg (by simp [h])]

theorem consume_none {P : Parser} {st : St} (h : st.pos = []) (ts : List Tok) : consumePositionals P st ts = .ok (st, ts) := by
  obtain ⟨ns, seen, pos, extras⟩ := st
  cases h
  rfl

/-- a command line of options, arguments, and options -/
theorem parse_block {P : Parser} (hP : P.Tidy) {xs ys : List Given} (hx : Known P xs) (hy : Known P ys) {rest : List Str} {block : List Tok} {pacts}
    (hr : classify P (rest ++ ys.flatMap Given.write) = (classify P (ys.flatMap Given.write)) >>= fun t => .ok (block ++ t)) (hb : Block P block pacts) :
    parseArgs P (xs.flatMap Given.write ++ (rest ++ ys.flatMap Given.write)) = final P (xs.flatMap (Given.acts P) ++ (pacts ++ ys.flatMap (Given.acts P))) := by
  obtain ⟨T1, hT1, _, hL1⟩ := line hP hx
  obtain ⟨T2, hT2, hd2, hL2⟩ := line hP hy
  have h2 : classify P (ys.flatMap Given.write) = .ok T2 := by
    have := hT2 [] [] rfl
    simpa using this
  rw [h2] at hr
  have h1 := hT1 _ _ hr
  have hT2' : T2 = [] ∨ ∃ s t T', T2 = .opt s t :: T' := by
    rcases hd2 with ⟨h, _⟩ | h
    · exact .inl h
    · exact .inr h
  unfold parseArgs final
  rw [h1]
  show (optionLoop P (T1 ++ (block ++ T2)).length _ (T1 ++ (block ++ T2)) >>= finish P) = _
  obtain ⟨f1, hf1, hl1⟩ := hL1 (block ++ T2) (T1 ++ (block ++ T2)).length ⟨P.defaults, [], P.positionals, []⟩ (Nat.le_refl _)
  rw [hl1, takeAll_append]
  cases ht1 : takeAll P ⟨P.defaults, [], P.positionals, []⟩ (xs.flatMap (Given.acts P)) with
  | error e => rfl
  | ok st1 =>
    have hp1 := takeAll_keeps ht1
    have he1 := takeAll_extras ht1
    show optionLoop P f1 st1 (block ++ T2) >>= finish P = takeAll P st1 (pacts ++ ys.flatMap (Given.acts P)) >>= ended P
    rw [takeAll_append]
    have hend : ∀ st : St, st.pos = [] → st.extras = [] → finish P (st, []) = ended P st := by
      intro st hp he
      unfold finish
      simp only [consume_none hp]
      show (if _ then _ else if st.extras ++ [] = [] then _ else _) = _
      rw [he]
      rfl
    have htail : ∀ (st : St) (f : Nat), T2.length ≤ f → st.pos = [] → st.extras = [] →
        (optionLoop P f st T2 >>= finish P) = takeAll P st (ys.flatMap (Given.acts P)) >>= ended P := by
      intro st f hf hp he
      obtain ⟨f2, _, hl2⟩ := hL2 [] f st (by simpa using hf)
      rw [List.append_nil] at hl2
      rw [hl2]
      cases ht2 : takeAll P st (ys.flatMap (Given.acts P)) with
      | error e => rfl
      | ok st2 =>
        show optionLoop P f2 st2 [] >>= finish P = ended P st2
        rw [optionLoop_none rfl]
        exact hend st2 (by rw [takeAll_keeps ht2, hp]) (by rw [takeAll_extras ht2, he])
    have hforget : ∀ (st : St) (l : List (Nat × List Str)), (takeAll P { st with pos := [] } l >>= ended P) = takeAll P st l >>= ended P := by
      intro st l
      rw [takeAll_pos]
      cases takeAll P st l <;> rfl
    rcases hb with ⟨rfl, hp, rfl⟩ | ⟨⟨b, bs, rfl, hb1, hbs⟩, hb2⟩
    · exact htail st1 f1 (by simpa using hf1) (by rw [hp1, hp]) he1
    · have hb2 := hb2 T2 st1 hT2' hp1
      rcases hT2' with rfl | ⟨s, t, T', rfl⟩
      · have hys : ys = [] := by
          rcases hd2 with ⟨_, h⟩ | ⟨s, t, T', h⟩
          · exact h
          · cases h
        subst hys
        rw [optionLoop_none (by simpa [hb1] using hbs)]
        show finish P (st1, _) = _
        unfold finish
        simp only [hb2, List.flatMap_nil, takeAll]
        rw [takeAll_pos]
        cases ht2 : takeAll P st1 pacts with
        | error e => rfl
        | ok st2 =>
          have he2 := takeAll_extras ht2
          show (if _ then _ else if st2.extras ++ [] = [] then _ else _) = _
          rw [he2, he1]
          rfl
      · match f1, hf1 with
        | f1 + 1, hf1 =>
          have hstep : optionLoop P (f1 + 1) st1 (b :: bs ++ .opt s t :: T') = consumePositionals P st1 (b :: bs ++ .opt s t :: T') >>= fun r =>
              if r.2.length < (b :: bs ++ .opt s t :: T').length then optionLoop P f1 r.1 r.2
              else optionLoop P (f1 + 1) st1 (b :: bs ++ .opt s t :: T') := by
            conv => lhs; unfold optionLoop
            rw [if_pos (by simp [Tok.isOpt])]
            split
            · rename_i h
              cases h
              cases hb1
            · rw [hb2, takeAll_pos]
              cases ht2 : takeAll P st1 pacts with
              | error e => rfl
              | ok st2 =>
                show (if _ then _ else _) = if _ then _ else _
                rw [if_pos (by simp; omega), if_pos (by simp; omega)]
          rw [hstep, hb2, takeAll_pos]
          cases ht2 : takeAll P st1 pacts with
          | error e => rfl
          | ok st2 =>
            show (if _ then _ else _) >>= _ = _
            rw [if_pos (by simp; omega)]
            show optionLoop P f1 { st2 with pos := [] } (.opt s t :: T') >>= finish P = takeAll P st2 _ >>= ended P
            rw [htail { st2 with pos := [] } f1 (by simp at hf1 ⊢; omega) rfl (by
              show st2.extras = []
              rw [takeAll_extras ht2]; exact he1)]
            exact hforget st2 _

end
end Xigt.Cmd
