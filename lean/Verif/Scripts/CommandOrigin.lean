import Verif.Scripts.CommandScripts
/-
C155: where what a script receives comes from, for all command lines, however they are written.
-/

set_option linter.unusedSectionVars false

namespace Xigt.Cmd

/-! ### The spec: what is said on a command line -/

/-- the number of arguments of an option -/
def Action.takes (a : Action) : Nat :=
  match a.nargs with
  | .one => 1
  | .num n => n
  | _ => 0

/-- the option in full, or so much of it that it is no other one -/
def Short (P : Parser) (p o : Str) : Prop := p <+: o ∧ (p = o ∨ ∀ a ∈ P.actions, ∀ o' ∈ a.opts, p <+: o' → o' = o)

/-- an action with its arguments as it may be said on a command line: at a place of its own, as `--option`, with its arguments apart or after `=`, or by a letter after
`-`, with its arguments apart or glued to it -/
inductive SaidIn (P : Parser) (argv : List Str) (a : Action) (args : List Str) : Prop
  | place : a.opts = [] → (∀ x ∈ args, x ∈ argv) → SaidIn P argv a args
  | long (o w : Str) : o ∈ a.opts → w ∈ argv → lit! "--" <+: w → Short P w o → args.length = a.takes → (∀ x ∈ args, x ∈ argv) → SaidIn P argv a args
  | longEq (o p v : Str) : o ∈ a.opts → p ++ '=' :: v ∈ argv → lit! "--" <+: p → Short P p o → a.takes = 1 → args = [v] → SaidIn P argv a args
  | letter (c : Char) (r : Str) : ['-', c] ∈ a.opts → '-' :: r ∈ argv → r.head? ≠ some '-' → c ∈ r → args.length = a.takes → (∀ x ∈ args, x ∈ argv) → SaidIn P argv a args
  | letterArg (c : Char) (r v : Str) : ['-', c] ∈ a.opts → '-' :: r ∈ argv → r.head? ≠ some '-' → c ∈ r → a.takes = 1 → args = [v] → v <:+ r → SaidIn P argv a args

/-- the strings in a value -/
def Value.strings : Value → List Str
  | .one s => [s]
  | .many l => l

def Val.strings : Val → List Str
  | .str s => [s]
  | .list l => l
  | .agenda l => l.flatMap fun x => x.2.strings
  | _ => []

/-- an attribute as it is by default, or set by an action that is said; and where the strings in it come from -/
def Explained (P : Parser) (argv : List Str) (d : Str) (v : Val) : Prop :=
  Dict.get? P.defaults d = some v ∨
  (∃ a ∈ P.actions, a.target = d ∧ ∃ args, SaidIn P argv a args) ∧
  ∀ s ∈ v.strings, (∃ v', Dict.get? P.defaults d = some v' ∧ s ∈ v'.strings) ∨ (∃ a ∈ P.actions, a.target = d ∧ ∃ args, SaidIn P argv a args ∧ s ∈ args) ∨
    ∃ a ∈ P.actions, ∃ c, a.kind = .const c ∧ s ∈ c.strings

/-! ### Options -/

theorem table_mem {P : Parser} {o : Str} {i : Nat} (h : (o, i) ∈ P.table) : ∃ a, P.actions[i]? = some a ∧ a ∈ P.actions ∧ o ∈ a.opts := by
  unfold Parser.table at h
  obtain ⟨⟨a, j⟩, hx, hy⟩ := List.mem_flatMap.1 h
  obtain ⟨o', ho, e⟩ := List.mem_map.1 hy
  cases e
  have := List.mem_zipIdx_iff_getElem?.1 hx
  exact ⟨a, this, List.mem_of_getElem? this, ho⟩

theorem mem_table {P : Parser} {a : Action} {o : Str} (ha : a ∈ P.actions) (ho : o ∈ a.opts) : ∃ i, (o, i) ∈ P.table := by
  obtain ⟨i, hi⟩ := List.mem_iff_getElem?.1 ha
  exact ⟨i, List.mem_flatMap.2 ⟨(a, i), List.mem_zipIdx_iff_getElem?.2 hi, List.mem_map.2 ⟨o, ho, rfl⟩⟩⟩

theorem number_takes {P : Parser} {i : Nat} {a : Action} (h : P.actions[i]? = some a) : P.number i = a.takes := by
  unfold Parser.number Action.takes
  rw [h]
  rfl

theorem partitionEq_spec (s : Str) : ('=' ∉ (partitionEq s).1) ∧ match (partitionEq s).2 with
    | none => (partitionEq s).1 = s
    | some v => s = (partitionEq s).1 ++ '=' :: v := by
  induction s with
  | nil => simp [partitionEq]
  | cons c s ih =>
    by_cases hc : c = '='
    · simp [partitionEq, hc]
    · simp only [partitionEq, if_neg hc]
      refine ⟨?_, ?_⟩
      · simp only [List.mem_cons, not_or]
        exact ⟨Ne.symm hc, ih.1⟩
      · cases h : (partitionEq s).2 with
        | none => rw [h] at ih; simp [ih.2]
        | some v => rw [h] at ih; simp only [List.cons_append]; rw [← ih.2]

/-- what an argument is taken for -/
inductive TupleOf (P : Parser) (w : Str) : OptTuple → Prop
  | unknown : TupleOf P w ⟨none, w, none, none⟩
  | long (o : Str) (i : Nat) (s : Str) : (o, i) ∈ P.table → lit! "--" <+: w → Short P w o → lit! "--" <+: s → TupleOf P w ⟨some i, s, none, none⟩
  | longEq (o p v : Str) (i : Nat) (s : Str) : (o, i) ∈ P.table → w = p ++ '=' :: v → lit! "--" <+: p → Short P p o → lit! "--" <+: s → TupleOf P w ⟨some i, s, some (lit! "="), some v⟩
  | letter (c : Char) (i : Nat) : (['-', c], i) ∈ P.table → c ≠ '-' → w = ['-', c] → TupleOf P w ⟨some i, ['-', c], none, none⟩
  | letterArg (c : Char) (i : Nat) (r v : Str) (sep : Option Str) : (['-', c], i) ∈ P.table → c ≠ '-' → w = '-' :: c :: r → v <:+ r → TupleOf P w ⟨some i, ['-', c], sep, some v⟩

theorem dashes_prefix {s : Str} : lit! "--" <+: s ↔ ∃ r, s = '-' :: '-' :: r := by
  constructor
  · rintro ⟨r, rfl⟩; exact ⟨r, rfl⟩
  · rintro ⟨r, rfl⟩; exact ⟨r, rfl⟩

theorem short_self {P : Parser} (o : Str) : Short P o o := ⟨List.prefix_rfl, .inl rfl⟩

section
variable [Uni]

theorem optional_tuple {P : Parser} (hP : P.Tidy) {w : Str} {t : OptTuple} (h : parseOptional P w = .ok (some t)) : TupleOf P w t := by
  unfold parseOptional at h
  by_cases hd : w.head? ≠ some '-'
  · rw [if_pos hd] at h; cases h
  rw [if_neg hd] at h
  cases hf : P.find w with
  | some i =>
    rw [hf] at h
    simp only [Except.ok.injEq, Option.some.injEq] at h
    subst h
    rcases tidy_find hP hf with ⟨c, rfl, h1, _⟩ | ⟨r, rfl, _, _⟩
    · exact .letter c i (find_mem hf) h1 rfl
    · exact .long _ i _ (find_mem hf) ⟨r, rfl⟩ (short_self _) ⟨r, rfl⟩
  | none =>
    rw [hf] at h
    simp only at h
    by_cases hl : w.length = 1
    · rw [if_pos hl] at h; cases h
    rw [if_neg hl] at h
    obtain ⟨hn, hp⟩ := partitionEq_spec w
    split at h
    · rename_i t' ht
      simp only [Except.ok.injEq, Option.some.injEq] at h
      subst h
      obtain ⟨e, he, ht⟩ := Option.bind_eq_some_iff.1 ht
      obtain ⟨i, hi, ht⟩ := Option.map_eq_some_iff.1 ht
      subst ht
      rw [he] at hp
      simp only at hp
      rcases tidy_find hP hi with ⟨c, h0, h1, _⟩ | ⟨r, h0, _, _⟩
      · rw [h0] at hp ⊢
        refine .letterArg c i ('=' :: e) e _ (h0 ▸ find_mem hi) h1 hp ⟨['='], rfl⟩
      · refine .longEq _ _ e i _ (find_mem hi) hp ?_ (short_self _) ?_
        · rw [h0]; exact ⟨r, rfl⟩
        · rw [h0]; exact ⟨r, rfl⟩
    · rename_i hno
      split at h
      · cases h
      · rename_i t' ht
        simp only [Except.ok.injEq, Option.some.injEq] at h
        subst h
        unfold optionTuples at ht
        by_cases hp2 : (lit! "--").isPrefixOf w = true
        · rw [if_pos hp2] at ht
          have hw : lit! "--" <+: w := List.isPrefixOf_iff_prefix.1 hp2
          obtain ⟨r, hr⟩ := dashes_prefix.1 hw
          have hp1 : lit! "--" <+: (partitionEq w).1 := by
            rw [hr]
            exact ⟨(partitionEq r).1, by simp [partitionEq]⟩
          simp only at ht
          generalize hq : P.table.filter (fun o => (partitionEq w).1.isPrefixOf o.1) = L at ht
          have hall : ∀ o ∈ P.table, (partitionEq w).1 <+: o.1 → o ∈ L := fun o ho h => by
            rw [← hq]; exact List.mem_filter.2 ⟨ho, List.isPrefixOf_iff_prefix.2 h⟩
          match L, ht with
          | [o], ht =>
            have ho : o ∈ P.table ∧ (partitionEq w).1 <+: o.1 := by
              have : o ∈ P.table.filter (fun o => (partitionEq w).1.isPrefixOf o.1) := by rw [hq]; exact List.mem_singleton.2 rfl
              exact ⟨(List.mem_filter.1 this).1, List.isPrefixOf_iff_prefix.1 (List.mem_filter.1 this).2⟩
            have hs : Short P (partitionEq w).1 o.1 := by
              refine ⟨ho.2, .inr fun a ha o' ho' h => ?_⟩
              obtain ⟨i, hi⟩ := mem_table ha ho'
              have := List.mem_singleton.1 (hall _ hi h)
              rw [← this]
            have ho1 : lit! "--" <+: o.1 := hp1.trans ho.2
            simp only [List.map_cons, List.map_nil, List.cons.injEq, and_true] at ht
            subst ht
            cases hv : (partitionEq w).2 with
            | none =>
              rw [hv] at hp
              simp only at hp
              rw [hp] at hs
              exact .long _ _ _ ho.1 hw hs ho1
            | some v =>
              rw [hv] at hp
              simp only at hp
              exact .longEq _ _ v _ _ ho.1 hp hp1 hs ho1
        · rw [if_neg hp2] at ht
          have hm : t' ∈ P.table.filterMap (fun o => if o.1 = w.take 2 then some ⟨some o.2, o.1, some [], some (w.drop 2)⟩
              else if w.isPrefixOf o.1 then some ⟨some o.2, o.1, none, none⟩ else none) := by rw [ht]; exact List.mem_singleton.2 rfl
          obtain ⟨⟨o, i⟩, ho, hm⟩ := List.mem_filterMap.1 hm
          have hhead : w.head? = some '-' := Classical.byContradiction fun h => hd h
          obtain ⟨c, r, rfl⟩ : ∃ c r, w = '-' :: c :: r := by
            cases w with
            | nil => cases hhead
            | cons x w =>
              cases w with
              | nil => exact absurd rfl hl
              | cons c r =>
                simp only [List.head?_cons, Option.some.injEq] at hhead
                exact ⟨c, r, by rw [hhead]⟩
          have hc : c ≠ '-' := by
            rintro rfl
            exact hp2 (by simp [List.isPrefixOf])
          simp only at hm
          by_cases h2 : o = List.take 2 ('-' :: c :: r)
          · rw [if_pos h2] at hm
            cases hm
            have h2 : o = ['-', c] := by simpa using h2
            subst h2
            exact .letterArg c i r r _ ho hc rfl List.suffix_rfl
          · rw [if_neg h2] at hm
            by_cases h3 : ('-' :: c :: r).isPrefixOf o = true
            · exfalso
              have h3 := List.isPrefixOf_iff_prefix.1 h3
              rcases hP.1 _ ho with ⟨c', h1, _⟩ | ⟨r', h1, _⟩
              · simp only at h1
                rw [h1] at h3 h2
                obtain ⟨x, hx⟩ := h3
                simp only [List.cons_append, List.cons.injEq, true_and] at hx
                exact h2 (by simp [hx.1])
              · simp only at h1
                rw [h1] at h3
                obtain ⟨x, hx⟩ := h3
                simp only [List.cons_append, List.cons.injEq, true_and] at hx
                exact hc hx.1
            · rw [if_neg h3] at hm; cases hm
      · split at h
        · cases h
        · split at h
          · cases h
          · simp only [Except.ok.injEq, Option.some.injEq] at h
            subst h
            exact .unknown

end

/-- letters: what is glued to an option comes from the argument -/
theorem glued_said {P : Parser} {argv : List Str} {r : Str} (hw : '-' :: r ∈ argv) (hr : r.head? ≠ some '-') : ∀ (n : Nat) (e : Str), e.length ≤ n → ∀ (i : Nat) (c : Char) (eq : Bool) (g : Glued),
    (['-', c], i) ∈ P.table → c ∈ r → e <:+ r → glued P i false eq e = .ok g →
    (∀ x ∈ g.acts, ∃ a, P.actions[x.1]? = some a ∧ SaidIn P argv a x.2) ∧
    ∀ j, g.open' = some j → ∃ c', (['-', c'], j) ∈ P.table ∧ c' ∈ r := by
  intro n
  induction n with
  | zero =>
    intro e hl i c eq g hi hc he h
    obtain ⟨a, ha, -, ho⟩ := table_mem hi
    cases e with
    | cons d e => simp at hl
    | nil =>
      unfold glued at h
      split at h
      · rename_i hn
        simp only [Except.ok.injEq] at h
        subst h
        rw [number_takes ha] at hn
        refine ⟨fun x hx => ?_, by simp⟩
        cases List.mem_singleton.1 hx
        exact ⟨a, ha, .letterArg c r [] ho hw hr hc hn rfl he⟩
      · cases h
  | succ n ih =>
    intro e hl i c eq g hi hc he h
    obtain ⟨a, ha, -, ho⟩ := table_mem hi
    cases e with
    | nil => exact ih [] (by simp) i c eq g hi hc he h
    | cons d e =>
      unfold glued at h
      split at h
      · rename_i hn
        simp only [Except.ok.injEq] at h
        subst h
        rw [number_takes ha] at hn
        refine ⟨fun x hx => ?_, by simp⟩
        cases List.mem_singleton.1 hx
        exact ⟨a, ha, .letterArg c r _ ho hw hr hc hn rfl he⟩
      · split at h
        · cases h
        · rename_i hn hn0
          have hn0 : a.takes = 0 := by rw [← number_takes ha]; simp at hn0; exact hn0
          have hme : SaidIn P argv a [] := .letter c r ho hw hr hc (by rw [hn0]; rfl) (by simp)
          split at h
          · cases h
          · have hdr : d ∈ r := he.subset (by simp)
            have her : e <:+ r := (List.suffix_cons d e).trans he
            cases hf : P.find ['-', d] with
            | none =>
              rw [hf] at h
              simp only [Except.ok.injEq] at h
              subst h
              refine ⟨fun x hx => ?_, by simp⟩
              cases List.mem_singleton.1 hx
              exact ⟨a, ha, hme⟩
            | some j =>
              rw [hf] at h
              have hj := find_mem hf
              have go : ∀ (e' : Str) (eq' : Bool), e'.length ≤ n → e' <:+ r → (do
                  let g ← glued P j false eq' e'
                  return { g with acts := (i, []) :: g.acts } : Run Glued) = .ok g →
                  (∀ x ∈ g.acts, ∃ a, P.actions[x.1]? = some a ∧ SaidIn P argv a x.2) ∧ ∀ j, g.open' = some j → ∃ c', (['-', c'], j) ∈ P.table ∧ c' ∈ r := by
                intro e' eq' hl' he' h
                cases hg : glued P j false eq' e' with
                | error x => rw [hg] at h; cases h
                | ok g' =>
                  rw [hg] at h
                  cases h
                  obtain ⟨g1, g2⟩ := ih e' hl' j d eq' g' hj hdr he' hg
                  refine ⟨fun x hx => ?_, g2⟩
                  rcases List.mem_cons.1 hx with rfl | hx
                  · exact ⟨a, ha, hme⟩
                  · exact g1 x hx
              cases e with
              | nil =>
                simp only [Except.ok.injEq] at h
                subst h
                refine ⟨fun x hx => ?_, fun j' hj' => ?_⟩
                · cases List.mem_singleton.1 hx
                  exact ⟨a, ha, hme⟩
                · cases hj'
                  exact ⟨d, hj, hdr⟩
              | cons x e' =>
                simp only [List.length_cons] at hl
                by_cases hx : x = '='
                · subst hx
                  exact go e' true (by omega) ((List.suffix_cons _ e').trans her) h
                · refine go (x :: e') false (by simp only [List.length_cons]; omega) her ?_
                  simp only [hx] at h
                  exact h

/-! ### Actions -/

theorem values_from {a : Action} {args : List Str} {v : Value} (h : getValues a args = .ok v) : ∀ s ∈ v.strings, s ∈ args := by
  have he : ∀ s ∈ (if a.opts = [] ∧ a.nargs ≠ .remainder then args.erase (lit! "--") else args), s ∈ args := by
    intro s hs
    split at hs
    · exact List.mem_of_mem_erase hs
    · exact hs
  unfold getValues at h
  extract_lets l fine at h
  have he : ∀ s ∈ l, s ∈ args := he
  clear_value l fine
  cases hn : a.nargs with
  | remainder => rw [hn] at h; cases h; exact he
  | one =>
    rw [hn] at h
    simp only at h
    split at h
    · rw [apply_ite (fun x => x = Except.ok v)] at h
      split at h
      · cases h; exact he
      · cases h
    · rw [apply_ite (fun x => x = Except.ok v)] at h
      split at h
      · cases h; exact he
      · cases h
  | _ =>
    rw [hn] at h
    simp only at h
    rw [apply_ite (fun x => x = Except.ok v)] at h
    split at h
    · cases h; exact he
    · cases h

/-- all attributes are explained, and the actions at places have no names -/
structure Ok (P : Parser) (argv : List Str) (st : St) : Prop where
  ns : ∀ d v, Dict.get? st.ns d = some v → Explained P argv d v
  pos : ∀ i ∈ st.pos, ∃ a, P.actions[i]? = some a ∧ a.opts = []

theorem value_explained {P : Parser} {argv : List Str} {a : Action} (ha : a ∈ P.actions) {args : List Str} (hs : SaidIn P argv a args) {v : Value} (hv : ∀ s ∈ v.strings, s ∈ args)
    {old : Option Val} (ho : ∀ v, old = some v → Explained P argv a.target v) : Explained P argv a.target (a.value v old) := by
  have mine : ∀ s ∈ v.strings, ∃ a' ∈ P.actions, a'.target = a.target ∧ ∃ args, SaidIn P argv a' args ∧ s ∈ args := fun s h => ⟨a, ha, rfl, args, hs, hv s h⟩
  have olds : ∀ v, old = some v → ∀ s ∈ v.strings, (∃ v', Dict.get? P.defaults a.target = some v' ∧ s ∈ v'.strings) ∨
      (∃ a' ∈ P.actions, a'.target = a.target ∧ ∃ args, SaidIn P argv a' args ∧ s ∈ args) ∨ ∃ a ∈ P.actions, ∃ c, a.kind = .const c ∧ s ∈ c.strings := by
    intro v e s h
    rcases ho v e with h1 | ⟨-, h2⟩
    · exact .inl ⟨v, h1, h⟩
    · exact h2 s h
  refine .inr ⟨⟨a, ha, rfl, args, hs⟩, ?_⟩
  intro s h
  unfold Action.value at h
  cases hk : a.kind with
  | store =>
    rw [hk] at h
    refine .inr (.inl (mine s ?_))
    cases v <;> exact h
  | const c =>
    rw [hk] at h
    exact .inr (.inr ⟨a, ha, c, hk, h⟩)
  | append =>
    rw [hk] at h
    rcases List.mem_append.1 h with h | h
    · cases old with
      | none => cases h
      | some w =>
        cases w with
        | list l => exact olds _ rfl s h
        | _ => cases h
    · refine .inr (.inl (mine s ?_))
      cases v <;> exact h
  | count => rw [hk] at h; cases h
  | help => rw [hk] at h; cases h
  | agenda =>
    rw [hk] at h
    simp only [Val.strings, List.flatMap_append, List.mem_append] at h
    rcases h with h | h
    · cases old with
      | none => cases h
      | some w =>
        cases w with
        | agenda l => exact olds _ rfl s h
        | _ => cases h
    · refine .inr (.inl (mine s ?_))
      simpa using h

section
variable [Uni]

theorem action_ok {P : Parser} {argv : List Str} {st st' : St} {i : Nat} {args : List Str} {a : Action} (hi : P.actions[i]? = some a) (hs : SaidIn P argv a args)
    (h : takeAction P st i args = .ok st') (ho : Ok P argv st) : Ok P argv st' := by
  refine ⟨fun d v hd => ?_, by rw [takeAction_keeps h]; exact ho.pos⟩
  rw [(takeAction_eff h).2 d] at hd
  unfold eff at hd
  unfold takeAction at h
  simp only [hi] at hd h
  obtain ⟨w, hw, -⟩ := run_ok h
  simp only [hw] at hd
  split at hd
  · rename_i hd'
    cases hd
    subst hd'
    exact value_explained (List.mem_of_getElem? hi) hs (values_from hw) fun v hv => ho.ns _ v hv
  · exact ho.ns d v hd

theorem all_ok {P : Parser} {argv : List Str} : ∀ (acts : List (Nat × List Str)) (st st' : St), (∀ x ∈ acts, ∃ a, P.actions[x.1]? = some a ∧ SaidIn P argv a x.2) →
    takeAll P st acts = .ok st' → Ok P argv st → Ok P argv st'
  | [], st, st', _, h, ho => by rw [takeAll] at h; cases h; exact ho
  | (i, args) :: acts, st, st', hs, h, ho => by
    rw [takeAll] at h
    obtain ⟨s1, h1, h⟩ := run_ok h
    obtain ⟨a, ha, hs1⟩ := hs (i, args) (by simp)
    exact all_ok acts s1 st' (fun x hx => hs x (by simp [hx])) h (action_ok ha hs1 h1 ho)

/-! ### The loop -/

/-- tokens that come from the arguments -/
def TokOf (P : Parser) (argv : List Str) : Tok → Prop
  | .arg s => s ∈ argv
  | .opt s t => s ∈ argv ∧ TupleOf P s t
  | .dashes => lit! "--" ∈ argv

theorem TokOf.text {P : Parser} {argv : List Str} {t : Tok} (h : TokOf P argv t) : t.text ∈ argv := by
  cases t with
  | arg s => exact h
  | opt s t => exact h.1
  | dashes => exact h

theorem args_from {P : Parser} {argv : List Str} : ∀ (n : Nat) (ts : List Tok) (r : List Str × List Tok), takeArgs n ts = some r → (∀ t ∈ ts, TokOf P argv t) →
    (∀ x ∈ r.1, x ∈ argv) ∧ r.1.length = n ∧ ∀ t ∈ r.2, TokOf P argv t
  | 0, ts, r, h, ht => by rw [takeArgs] at h; cases h; exact ⟨by simp, rfl, ht⟩
  | n + 1, [], r, h, ht => by simp [takeArgs] at h
  | n + 1, .opt _ _ :: ts, r, h, ht => by simp [takeArgs] at h
  | n + 1, .dashes :: ts, r, h, ht => by simp [takeArgs] at h
  | n + 1, .arg s :: ts, r, h, ht => by
    rw [takeArgs] at h
    obtain ⟨q, hq, rfl⟩ := Option.map_eq_some_iff.1 h
    obtain ⟨h1, h2, h3⟩ := args_from n ts q hq fun t h => ht t (by simp [h])
    refine ⟨fun x hx => ?_, by simp [h2], h3⟩
    rcases List.mem_cons.1 hx with rfl | hx
    · exact ht (.arg x) (by simp)
    · exact h1 x hx

theorem optional_ok {P : Parser} {argv : List Str} {st : St} {s : Str} {t : OptTuple} {ts : List Tok} {r : St × List Tok} (hs : s ∈ argv) (ht : TupleOf P s t)
    (hts : ∀ t ∈ ts, TokOf P argv t) (h : consumeOptional P st s t ts = .ok r) (ho : Ok P argv st) : Ok P argv r.1 ∧ ∀ t ∈ r.2, TokOf P argv t := by
  have more : ∀ l, Ok P argv { st with extras := l } := fun l => ⟨ho.ns, ho.pos⟩
  unfold consumeOptional at h
  cases hac : t.action with
  | none => rw [hac] at h; cases h; exact ⟨more _, hts⟩
  | some i =>
    rw [hac] at h
    obtain ⟨g, hg, h⟩ := run_ok h
    -- what the argument itself says
    have key : (∀ x ∈ g.acts, ∃ a, P.actions[x.1]? = some a ∧ SaidIn P argv a x.2) ∧
        ∀ j, g.open' = some j → ∃ a, P.actions[j]? = some a ∧ ∀ args, args.length = a.takes → (∀ x ∈ args, x ∈ argv) → SaidIn P argv a args := by
      cases ht with
      | unknown => cases hac
      | long o i' s' h1 h2 h3 h4 =>
        cases hac
        obtain ⟨a, ha, -, hoa⟩ := table_mem h1
        simp only [said, Except.ok.injEq] at hg
        subst hg
        refine ⟨by simp, fun j hj => ?_⟩
        cases hj
        exact ⟨a, ha, fun args hl hx => .long o s hoa hs h2 h3 hl hx⟩
      | longEq o p v i' s' h1 h2 h3 h4 h5 =>
        cases hac
        obtain ⟨a, ha, -, hoa⟩ := table_mem h1
        have hp : (lit! "--").isPrefixOf s' = true := List.isPrefixOf_iff_prefix.2 h5
        simp only [said, hp] at hg
        have one : a.takes = 1 → g = ⟨[(i, [v])], none, none⟩ → _ := fun hn e => (by
          subst e
          refine ⟨fun x hx => ?_, by simp⟩
          cases List.mem_singleton.1 hx
          exact ⟨a, ha, .longEq o p v hoa (h2 ▸ hs) h3 h4 hn rfl⟩ :
          (∀ x ∈ g.acts, ∃ a, P.actions[x.1]? = some a ∧ SaidIn P argv a x.2) ∧
            ∀ j, g.open' = some j → ∃ a, P.actions[j]? = some a ∧ ∀ args, args.length = a.takes → (∀ x ∈ args, x ∈ argv) → SaidIn P argv a args)
        cases v with
        | nil =>
          unfold glued at hg
          split at hg
          · rename_i hn
            cases hg
            exact one (by rw [← number_takes ha]; exact hn) rfl
          · cases hg
        | cons c v =>
          unfold glued at hg
          split at hg
          · rename_i hn
            cases hg
            exact one (by rw [← number_takes ha]; exact hn) rfl
          · simp only [or_true, if_true] at hg
            cases hg
      | letter c i' h1 h2 h3 =>
        cases hac
        obtain ⟨a, ha, -, hoa⟩ := table_mem h1
        simp only [said, Except.ok.injEq] at hg
        subst hg
        refine ⟨by simp, fun j hj => ?_⟩
        cases hj
        exact ⟨a, ha, fun args hl hx => .letter c [c] hoa (h3 ▸ hs) (by simpa using h2) (by simp) hl hx⟩
      | letterArg c i' r' v sep h1 h2 h3 h4 =>
        cases hac
        have hp : (lit! "--").isPrefixOf ['-', c] = false := by
          simp [List.isPrefixOf, Ne.symm h2]
        simp only [said, hp] at hg
        obtain ⟨g1, g2⟩ := glued_said (r := c :: r') (h3 ▸ hs) (by simpa using h2) _ v (Nat.le_refl _) i c _ g h1 (by simp) (h4.trans (List.suffix_cons _ _)) hg
        refine ⟨g1, fun j hj => ?_⟩
        obtain ⟨c', hc1, hc2⟩ := g2 j hj
        obtain ⟨a, ha, -, hoa⟩ := table_mem hc1
        exact ⟨a, ha, fun args hl hx => .letter c' (c :: r') hoa (h3 ▸ hs) (by simpa using h2) hc2 hl hx⟩
    cases hop : g.open' with
    | none =>
      rw [hop] at h
      obtain ⟨st1, h1, h⟩ := run_ok h
      cases h
      exact ⟨all_ok _ _ _ key.1 h1 (more _), hts⟩
    | some j =>
      rw [hop] at h
      obtain ⟨a, ha, hj⟩ := key.2 j hop
      cases hta : takeArgs (P.number j) ts with
      | none => simp only [hta] at h; cases h
      | some q =>
        obtain ⟨args, ts'⟩ := q
        simp only [hta] at h
        obtain ⟨st1, h1, h⟩ := run_ok h
        cases h
        obtain ⟨a1, a2, a3⟩ := args_from _ _ _ hta hts
        refine ⟨all_ok _ _ _ (fun x hx => ?_) h1 ho, a3⟩
        rcases List.mem_append.1 hx with hx | hx
        · exact key.1 x hx
        · cases List.mem_singleton.1 hx
          exact ⟨a, ha, hj args (by rw [← number_takes ha]; exact a2) a1⟩

theorem takePositionals_ok {P : Parser} {argv : List Str} : ∀ (l : List (Nat × Nat)) (st : St) (ts : List Tok) (r : St × List Tok), (∀ x ∈ l, ∃ a, P.actions[x.1]? = some a ∧ a.opts = []) →
    (∀ t ∈ ts, TokOf P argv t) → takePositionals P st l ts = .ok r → Ok P argv st → Ok P argv r.1 ∧ ∀ t ∈ r.2, TokOf P argv t
  | [], st, ts, r, _, ht, h, ho => by rw [takePositionals] at h; cases h; exact ⟨ho, ht⟩
  | (i, n) :: l, st, ts, r, hl, ht, h, ho => by
    rw [takePositionals] at h
    obtain ⟨st1, h1, h⟩ := run_ok h
    obtain ⟨a, ha, hoa⟩ := hl (i, n) (by simp)
    refine takePositionals_ok l st1 _ r (fun x hx => hl x (by simp [hx])) (fun t h => ht t (List.mem_of_mem_drop h)) h (action_ok ha (.place hoa fun x hx => ?_) h1 ho)
    obtain ⟨t, h2, rfl⟩ := List.mem_map.1 hx
    exact (ht t (List.mem_of_mem_take h2)).text

theorem positionals_ok {P : Parser} {argv : List Str} {st : St} {ts : List Tok} {r : St × List Tok} (ht : ∀ t ∈ ts, TokOf P argv t) (h : consumePositionals P st ts = .ok r) (ho : Ok P argv st) :
    Ok P argv r.1 ∧ ∀ t ∈ r.2, TokOf P argv t := by
  unfold consumePositionals at h
  simp only at h
  exact takePositionals_ok _ _ _ _ (fun x hx => ho.pos x.1 (List.of_mem_zip hx).1) ht h ⟨ho.ns, fun i hi => ho.pos i (List.mem_of_mem_drop hi)⟩

theorem loop_ok {P : Parser} {argv : List Str} : ∀ (fuel : Nat) (st : St) (ts : List Tok) (r : St × List Tok), (∀ t ∈ ts, TokOf P argv t) → optionLoop P fuel st ts = .ok r → Ok P argv st →
    Ok P argv r.1 ∧ ∀ t ∈ r.2, TokOf P argv t := by
  intro fuel
  induction fuel with
  | zero => intro st ts r ht h ho; rw [optionLoop] at h; cases h; exact ⟨ho, ht⟩
  | succ fuel ih =>
    intro st ts r ht h ho
    unfold optionLoop at h
    by_cases hany : ts.any Tok.isOpt = true
    · rw [if_pos hany] at h
      have pos : (do
          let r ← consumePositionals P st ts
          if r.2.length < ts.length then optionLoop P fuel r.1 r.2
          else
            let st := { r.1 with extras := r.1.extras ++ (r.2.takeWhile fun t => !t.isOpt).map Tok.text }
            match r.2.dropWhile fun t => !t.isOpt with
            | .opt s t :: ts' => do
              let r ← consumeOptional P st s t ts'
              optionLoop P fuel r.1 r.2
            | ts' => .ok (st, ts') : Run (St × List Tok)) = .ok r → Ok P argv r.1 ∧ ∀ t ∈ r.2, TokOf P argv t := by
        intro h
        obtain ⟨q, hq, h⟩ := run_ok h
        obtain ⟨o1, o2⟩ := positionals_ok ht hq ho
        by_cases hlt : q.2.length < ts.length
        · rw [if_pos hlt] at h
          exact ih _ _ _ o2 h o1
        · rw [if_neg hlt] at h
          have hdrop : ∀ t ∈ q.2.dropWhile (fun t => !t.isOpt), TokOf P argv t := fun t h => o2 t ((List.dropWhile_suffix _).subset h)
          have o3 : Ok P argv { q.1 with extras := q.1.extras ++ (q.2.takeWhile fun t => !t.isOpt).map Tok.text } := ⟨o1.ns, o1.pos⟩
          simp only at h
          generalize q.2.dropWhile (fun t => !t.isOpt) = rest at h hdrop
          cases rest with
          | nil => cases h; exact ⟨o3, hdrop⟩
          | cons t ts' =>
            cases t with
            | opt s t =>
              obtain ⟨q', hq', h⟩ := run_ok h
              have := hdrop (.opt s t) (by simp)
              obtain ⟨o4, o5⟩ := optional_ok this.1 this.2 (fun t h => hdrop t (by simp [h])) hq' o3
              exact ih _ _ _ o5 h o4
            | _ => cases h; exact ⟨o3, hdrop⟩
      cases ts with
      | nil => exact pos h
      | cons t ts' =>
        cases t with
        | opt s t =>
          obtain ⟨q, hq, h⟩ := run_ok h
          have := ht (.opt s t) (by simp)
          obtain ⟨o1, o2⟩ := optional_ok this.1 this.2 (fun t h => ht t (by simp [h])) hq ho
          exact ih _ _ _ o2 h o1
        | _ => exact pos h
    · rw [if_neg hany] at h
      cases h
      exact ⟨ho, ht⟩

theorem positionals_places {P : Parser} : ∀ i ∈ P.positionals, ∃ a, P.actions[i]? = some a ∧ a.opts = [] := by
  intro i hi
  unfold Parser.positionals at hi
  obtain ⟨⟨a, j⟩, h1, rfl⟩ := List.mem_map.1 hi
  obtain ⟨h1, h2⟩ := List.mem_filter.1 h1
  exact ⟨a, List.mem_zipIdx_iff_getElem?.1 h1, List.isEmpty_iff.1 h2⟩

theorem classify_from {P : Parser} (hP : P.Tidy) : ∀ (l argv : List Str) (ts : List Tok), (∀ x ∈ l, x ∈ argv) → classify P l = .ok ts → ∀ t ∈ ts, TokOf P argv t
  | [], argv, ts, _, h => by rw [classify] at h; cases h; simp
  | s :: ss, argv, ts, hm, h => by
    rw [classify] at h
    split at h
    · rename_i hs
      cases h
      intro t ht
      rcases List.mem_cons.1 ht with rfl | ht
      · have := hm s (by simp)
        rw [hs] at this
        exact this
      · obtain ⟨x, hx, rfl⟩ := List.mem_map.1 ht
        exact hm x (by simp [hx])
    · obtain ⟨t, h1, h⟩ := run_ok h
      obtain ⟨ts', h2, h⟩ := run_ok h
      cases h
      intro u hu
      rcases List.mem_cons.1 hu with rfl | hu
      · cases t with
        | none => exact hm s (by simp)
        | some t => exact ⟨hm s (by simp), optional_tuple hP h1⟩
      · exact classify_from hP ss argv ts' (fun x hx => hm x (by simp [hx])) h2 u hu

/-- **C155**: whatever the command line, every attribute that a script receives is as it is by default, or is set by an option or file of the command line; and all strings
in it are given there, as arguments or as ends of arguments after the name of the option. -/
theorem C155_origin (P : Parser) (hP : P.Tidy) (argv : List Str) (ns : Dict Str Val) (h : parseArgs P argv = .ok ns) (d : Str) (v : Val) (hd : Dict.get? ns d = some v) :
    Explained P argv d v := by
  unfold parseArgs at h
  obtain ⟨ts, h1, h⟩ := run_ok h
  obtain ⟨r, h2, h⟩ := run_ok h
  obtain ⟨o1, o2⟩ := loop_ok _ _ _ _ (classify_from hP argv argv ts (fun _ h => h) h1) h2 ⟨fun d v h => .inl h, positionals_places⟩
  unfold finish at h
  obtain ⟨q, h3, h⟩ := run_ok h
  obtain ⟨o3, -⟩ := positionals_ok o2 h3 o1
  split at h
  · cases h
  · split at h
    · cases h
      exact o3.ns d v hd
    · cases h

/-! ### The scripts -/

omit [Uni] in
/-- a shortened option goes on to where it differs from another one -/
theorem Short.goes {P : Parser} {w o : Str} (h : Short P w o) (k : Nat) (o' : Str) (hk : k < o.length) (ho : ∃ a ∈ P.actions, o' ∈ a.opts) (hne : o' ≠ o) (hp : o.take k <+: o') :
    o.take (k + 1) <+: w := by
  obtain ⟨hw, h⟩ := h
  have hwe : w = o.take w.length := List.prefix_iff_eq_take.1 hw
  by_cases hl : w.length ≤ k
  · exfalso
    rcases h with h | h
    · rw [h] at hl; omega
    · obtain ⟨a, ha, ho⟩ := ho
      refine hne (h a ha o' ho (List.IsPrefix.trans ?_ hp))
      rw [hwe]
      exact List.take_prefix_take_left hl
  · rw [hwe]
    exact List.take_prefix_take_left (by omega)

theorem tidy_sort : sortParser.Tidy := tidy_of_B (by decide)
theorem tidy_partition : partitionParser.Tidy := tidy_of_B (by decide)
theorem tidy_query : queryParser.Tidy := tidy_of_B (by decide)
theorem tidy_validate : validateParser.Tidy := tidy_of_B (by decide)
theorem tidy_format (fs : List Str) : (formatParser fs).Tidy := 
  tidy_of_B (P := formatParser fs) ⟨rfl, by
    have : (formatParser fs).table.map Prod.fst = (formatParser []).table.map Prod.fst := rfl
    rw [this]
    decide⟩

/-- **C155** for `xigt sort`: it works in place only if an argument is `--in-place`, or a shorter form from `--in` on; and the file is an argument. -/
theorem C155_sort (argv : List Str) (ns : Dict Str Val) (h : parseArgs sortParser argv = .ok ns) :
    (Dict.get? ns (lit! "in_place") = some (.bool true) → ∃ w ∈ argv, lit! "--in" <+: w ∧ w <+: lit! "--in-place") ∧
    ∀ f, Dict.get? ns (lit! "infile") = some (.str f) → f ∈ argv := by
  constructor
  · intro hd
    rcases C155_origin _ tidy_sort argv ns h _ _ hd with h | ⟨⟨a, ha, ht, args, hs⟩, -⟩
    · exact absurd h (by decide)
    · have hal : a.opts = [lit! "--in-place"] ∧ a.takes = 0 := by
        revert ha ht
        simp only [sortParser, List.mem_cons, List.not_mem_nil, or_false]
        rintro (rfl | rfl | rfl | rfl | rfl | rfl | rfl | rfl) <;> decide
      obtain ⟨h1, h2⟩ := hal
      cases hs with
      | place h => rw [h1] at h; cases h
      | long o w ho hw hd hsh _ _ =>
        rw [h1] at ho
        cases List.mem_singleton.1 ho
        exact ⟨w, hw, hsh.goes 3 (lit! "--igt-key") (by decide) ⟨_, .tail _ (.tail _ (.tail _ (.tail _ (.head _)))), .head _⟩ (by decide) (by decide), hsh.1⟩
      | longEq _ _ _ _ _ _ _ h _ => rw [h2] at h; cases h
      | letter _ _ ho => rw [h1] at ho; exact absurd (List.mem_singleton.1 ho) (by simp)
      | letterArg _ _ _ ho => rw [h1] at ho; exact absurd (List.mem_singleton.1 ho) (by simp)
  · intro f hd
    rcases C155_origin _ tidy_sort argv ns h _ _ hd with h | ⟨-, h⟩
    · exact absurd h (by rw [show Dict.get? sortParser.defaults (lit! "infile") = some .none from by decide]; simp)
    · rcases h f (.head _) with ⟨v, h1, h2⟩ | ⟨a, ha, ht, args, hs, hf⟩ | ⟨a, ha, c, hc, hf⟩
      · rw [show Dict.get? sortParser.defaults (lit! "infile") = some .none from by decide] at h1
        cases h1; cases h2
      · have hal : a.opts = [] := by
          revert ha ht
          simp only [sortParser, List.mem_cons, List.not_mem_nil, or_false]
          rintro (rfl | rfl | rfl | rfl | rfl | rfl | rfl | rfl) <;> decide
        cases hs with
        | place _ h => exact h f hf
        | long _ _ ho => rw [hal] at ho; cases ho
        | longEq _ _ _ ho => rw [hal] at ho; cases ho
        | letter _ _ ho => rw [hal] at ho; cases ho
        | letterArg _ _ _ ho => rw [hal] at ho; cases ho
      · revert hc
        revert ha
        simp only [sortParser, List.mem_cons, List.not_mem_nil, or_false]
        rintro (rfl | rfl | rfl | rfl | rfl | rfl | rfl | rfl) hc <;> first | (cases hc; cases hf) | cases hc

/-- `o` is said to be the output: as an argument, with `-o`, `--o`, ..., `--output` as another one; after `=`; or after letters among which is `o` -/
def OutputSaid (argv : List Str) (o : Str) : Prop :=
  (o ∈ argv ∧ ∃ w ∈ argv, (lit! "--o" <+: w ∧ w <+: lit! "--output") ∨ ∃ r, w = '-' :: r ∧ r.head? ≠ some '-' ∧ 'o' ∈ r) ∨
  (∃ p, p ++ '=' :: o ∈ argv ∧ lit! "--o" <+: p ∧ p <+: lit! "--output") ∨
  ∃ r, '-' :: r ∈ argv ∧ r.head? ≠ some '-' ∧ 'o' ∈ r ∧ o <:+ r

/-- **C155** for `xigt import` and `xigt export`: the output is what is said to be it. -/
theorem C155_output (fs argv : List Str) (ns : Dict Str Val) (h : parseArgs (formatParser fs) argv = .ok ns) (o : Str) (hd : Dict.get? ns (lit! "output") = some (.str o)) :
    OutputSaid argv o := by
  have hdef : Dict.get? (formatParser fs).defaults (lit! "output") = some .none := rfl
  rcases C155_origin _ (tidy_format fs) argv ns h _ _ hd with h | ⟨-, h⟩
  · rw [hdef] at h; cases h
  · rcases h o (.head _) with ⟨v, h1, h2⟩ | ⟨a, ha, ht, args, hs, hf⟩ | ⟨a, ha, c, hc, hf⟩
    · rw [hdef] at h1; cases h1; cases h2
    · have hal : a.opts = [lit! "-o", lit! "--output"] ∧ a.takes = 1 := by
        simp only [formatParser, List.mem_cons, List.not_mem_nil, or_false] at ha
        rcases ha with rfl | rfl | rfl | rfl | rfl | rfl
        · exact absurd ht (by decide)
        · exact absurd ht (by decide)
        · exact absurd ht (by decide)
        · exact ⟨rfl, rfl⟩
        · exact absurd ht (by simp [Action.target])
        · exact absurd ht (by decide)
      obtain ⟨h1, h2⟩ := hal
      have other : ∃ a ∈ (formatParser fs).actions, lit! "--input" ∈ a.opts := ⟨_, .tail _ (.tail _ (.head _)), .tail _ (.head _)⟩
      have long : ∀ {x w : Str}, x ∈ a.opts → lit! "--" <+: w → Short (formatParser fs) w x → lit! "--o" <+: w ∧ w <+: lit! "--output" := by
        intro x w hx hw hsh
        rw [h1] at hx
        simp only [List.mem_cons, List.not_mem_nil, or_false] at hx
        rcases hx with rfl | rfl
        · exact absurd (hw.trans hsh.1) (by decide)
        · exact ⟨hsh.goes 2 (lit! "--input") (by decide) other (by decide) (by decide), hsh.1⟩
      have letter : ∀ {c : Char} {r : Str}, ['-', c] ∈ a.opts → c ∈ r → 'o' ∈ r := by
        intro c r hc hr
        rw [h1] at hc
        simp only [List.mem_cons, List.not_mem_nil, or_false, List.cons.injEq, true_and] at hc
        rcases hc with hc | hc
        · rw [hc.1] at hr; exact hr
        · exact absurd hc.2 (by simp)
      cases hs with
      | place h => rw [h1] at h; cases h
      | long x w hx hw hp hsh _ hall => exact .inl ⟨hall o hf, w, hw, .inl (long hx hp hsh)⟩
      | longEq x p v hx hw hp hsh _ he =>
        subst he
        cases List.mem_singleton.1 hf
        exact .inr (.inl ⟨p, hw, long hx hp hsh⟩)
      | letter c r hc hw hr hcr _ hall => exact .inl ⟨hall o hf, _, hw, .inr ⟨r, rfl, hr, letter hc hcr⟩⟩
      | letterArg c r v hc hw hr hcr _ he hv =>
        subst he
        cases List.mem_singleton.1 hf
        exact .inr (.inr ⟨r, hw, hr, letter hc hcr, hv⟩)
    · simp only [formatParser, List.mem_cons, List.not_mem_nil, or_false] at ha
      rcases ha with rfl | rfl | rfl | rfl | rfl | rfl <;> cases hc

/-- **C155** for `xigt partition`: the directory is an argument. -/
theorem C155_partition (argv : List Str) (ns : Dict Str Val) (h : parseArgs partitionParser argv = .ok ns) (o : Str) (hd : Dict.get? ns (lit! "outdir") = some (.str o)) : o ∈ argv := by
  have hdef : Dict.get? partitionParser.defaults (lit! "outdir") = some .none := by decide
  rcases C155_origin _ tidy_partition argv ns h _ _ hd with h | ⟨-, h⟩
  · rw [hdef] at h; cases h
  · rcases h o (.head _) with ⟨v, h1, h2⟩ | ⟨a, ha, ht, args, hs, hf⟩ | ⟨a, ha, c, hc, hf⟩
    · rw [hdef] at h1; cases h1; cases h2
    · have hal : a.opts = [] := by
        revert ha ht
        simp only [partitionParser, List.mem_cons, List.not_mem_nil, or_false]
        rintro (rfl | rfl | rfl | rfl | rfl | rfl) <;> decide
      cases hs with
      | place _ h => exact h o hf
      | long _ _ ho => rw [hal] at ho; cases ho
      | longEq _ _ _ ho => rw [hal] at ho; cases ho
      | letter _ _ ho => rw [hal] at ho; cases ho
      | letterArg _ _ _ ho => rw [hal] at ho; cases ho
    · simp only [partitionParser, List.mem_cons, List.not_mem_nil, or_false] at ha
      rcases ha with rfl | rfl | rfl | rfl | rfl | rfl <;> cases hc

end

section
attribute [local instance] asciiUni

/-- shortened and glued options: what is received comes from there -/
example : ∃ ns, parseArgs sortParser [lit! "--in", lit! "--ig=@id", lit! "a.xml"] = .ok ns ∧ Dict.get? ns (lit! "in_place") = some (.bool true) ∧
    Dict.get? ns (lit! "infile") = some (.str (lit! "a.xml")) := ⟨_, rfl, by decide, by decide⟩

example : parseArgs sortParser [lit! "--i", lit! "a.xml"] = .error .usage := rfl

example : ∃ ns, parseArgs exportParser [lit! "-vob.tex", lit! "-i", lit! "a.xml"] = .ok ns ∧ Dict.get? ns (lit! "output") = some (.str (lit! "b.tex")) := ⟨_, rfl, by decide⟩

end
end Xigt.Cmd
