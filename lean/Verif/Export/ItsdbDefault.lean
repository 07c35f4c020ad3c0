import Verif.Export.ItsdbProps
import Verif.Igt.Same
import Verif.Import.OdinProps
/-
C163: the expression for `i-input` that the [incr tsdb()] exporter has by default, /repo/xigt/exporters/itsdb.py:14-21.

An Item has neither `__len__` nor `__bool__` (model.py:311-428, mixins.py:157-292), so every one counts as true.  Simplification: an
item is given with the tier it is in; what becomes of a value that is not a string when the third-party module writes it is not modelled.
-/
set_option linter.unusedSectionVars false

namespace Xigt.Tsdb

/-! ### Model -/

/-- itsdb.py:17-19 -/
def DEFAULT_INPUT : Str :=
  lit! "next(igt.select(type=\"phrases\"), [\"\"])[0] or \" \".join(item.get_content()          for item in next(igt.select(type=\"words\"),[]))"

/-- itsdb.py:16 -/
def I_INPUT : Str := lit! "i-input"
/-- itsdb.py:17 -/
def PHRASES : Str := lit! "phrases"
/-- itsdb.py:19 -/
def WORDS : Str := lit! "words"

/-- the value of the expression: an item, or a string -/
inductive Cell where
  | item (tier it : Obj)
  | text (s : Str)

/-- `next(igt.select(type=ty), None)` -/
def nextOf (igt : Obj) (ty : Str) : Py (Option Obj) := do
  let ts ← select igt.data.nsmap igt.kids [(lit! "type", some ty)]
  .ok ts.head?

/-- `" ".join(vs)` -/
def joinBlank : List (Option Str) → Py (List Str)
  | [] => .ok []
  | none :: _ => .error .typeError
  | some v :: vs => do
    let ws ← joinBlank vs
    .ok (v :: ws)

section
variable [Uni]

/-- itsdb.py:17-19: the expression; `get_content` is `value` (model.py:421-428) and `join` takes all values before it looks at them.  `n` is
the number of nested calls that the stack allows -/
def defaultInput (n : Nat) (igt : Obj) : Py Cell := do
  match ← nextOf igt PHRASES with
  | some t =>
    match t.kids with
    | [] => .error .indexError
    | it :: _ => .ok (.item t it)
  | none =>
    match ← nextOf igt WORDS with
    | none => .ok (.text [])
    | some t => do
      let vs ← mapPy (fun i => value n (some igt) (some t) i) t.kids
      let ws ← joinBlank vs
      .ok (.text (join [' '] ws))

/-- itsdb.py:51-52: evaluating, with the default expression known -/
def evalDefault (n : Nat) (other : Str → Obj → Py Cell) (e : Str) (igt : Obj) : Py Cell :=
  if e = DEFAULT_INPUT then defaultInput n igt else other e igt

/-- itsdb.py:36-38, 50: the default configuration -/
def defaultConf : Conf := { cells := [(I_INPUT, DEFAULT_INPUT)] }

/-! ### Spec -/

omit [Uni] in
/-- no tier has the type -/
def NoneOf (ty : Str) (ts : List Obj) : Prop := ∀ u ∈ ts, u.data.type ≠ some ty

omit [Uni] in
/-- the first tier that has the type -/
def FirstOf (ty : Str) (ts : List Obj) (t : Obj) : Prop := ∃ pre post, ts = pre ++ t :: post ∧ t.data.type = some ty ∧ NoneOf ty pre

/-- what is in the cell: the first item of the first tier of phrases; without such a tier, the values of the items of the first tier of words with blanks
between them; without that, nothing -/
inductive Input (n : Nat) (igt : Obj) : Cell → Prop
  | phrase {t it its} : FirstOf PHRASES igt.kids t → t.kids = it :: its → Input n igt (.item t it)
  | words {t vs} : NoneOf PHRASES igt.kids → FirstOf WORDS igt.kids t →
      All2 (fun i v => value n (some igt) (some t) i = .ok (some v)) t.kids vs → Input n igt (.text (List.intercalate [' '] vs))
  | nothing : NoneOf PHRASES igt.kids → NoneOf WORDS igt.kids → Input n igt (.text [])

/-! ### Proofs -/

omit [Uni] in
theorem bindOk {α β : Type} {r : Py α} {f : α → Py β} {y : β} (h : (r >>= f) = .ok y) : ∃ x, r = .ok x ∧ f x = .ok y := by
  cases r with
  | error e => cases h
  | ok x => exact ⟨x, rfl, h⟩

omit [Uni] in
theorem nextOf_eq (igt : Obj) (ty : Str) : nextOf igt ty = .ok (igt.kids.find? fun x => decide (x.data.type = some ty)) := by
  have : ∀ x : Obj, member x (lit! "type") = x.data.type := fun x => rfl
  have hn : Dict.has [(lit! "type", some ty)] (lit! "namespace") = false := rfl
  simp only [nextOf, select, hn, Bool.false_eq_true, if_false, bind, Except.bind]
  simp only [List.all_cons, List.all_nil, Bool.and_true, this, List.head?_filter]

omit [Uni] in
theorem find_none {ty : Str} {ts : List Obj} : (ts.find? fun x => decide (x.data.type = some ty)) = none ↔ NoneOf ty ts := by
  simp [List.find?_eq_none, NoneOf]

omit [Uni] in
theorem find_some {ty : Str} {ts : List Obj} {t : Obj} : (ts.find? fun x => decide (x.data.type = some ty)) = some t ↔ FirstOf ty ts t := by
  rw [List.find?_eq_some_iff_append]
  constructor
  · rintro ⟨h, pre, post, rfl, h2⟩
    exact ⟨pre, post, rfl, by simpa using h, fun u hu => by simpa using h2 u hu⟩
  · rintro ⟨pre, post, rfl, h, h2⟩
    exact ⟨by simpa using h, pre, post, rfl, fun u hu => by simpa using h2 u hu⟩

omit [Uni] in
theorem join_intercalate (sep : Str) (l : List Str) : join sep l = List.intercalate sep l := by
  induction l with
  | nil => rfl
  | cons x l ih =>
    cases l with
    | nil => simp [join, List.intercalate]
    | cons y l => simp only [join, ih]; simp [List.intercalate, List.intersperse]

omit [Uni] in
theorem joinBlank_iff {vs : List (Option Str)} {ws : List Str} : joinBlank vs = .ok ws ↔ vs = ws.map some := by
  induction vs generalizing ws with
  | nil => cases ws <;> simp [joinBlank]
  | cons v vs ih =>
    cases v with
    | none => cases ws <;> simp [joinBlank]
    | some v =>
      simp only [joinBlank]
      constructor
      · intro h
        obtain ⟨ws', h1, h⟩ := bindOk h
        cases h
        rw [ih.1 h1]; rfl
      · intro h
        cases ws with
        | nil => cases h
        | cons w ws =>
          simp only [List.map_cons, List.cons.injEq, Option.some.injEq] at h
          simp only [ih.2 h.2, bind, Except.bind, h.1]

omit [Uni] in
theorem values_iff {f : Obj → Py (Option Str)} {is : List Obj} {ws : List Str} : (∃ vs, mapPy f is = .ok vs ∧ joinBlank vs = .ok ws) ↔
    All2 (fun i v => f i = .ok (some v)) is ws := by
  induction is generalizing ws with
  | nil =>
    constructor
    · rintro ⟨vs, h1, h2⟩; cases h1; cases h2; exact .nil
    · intro h; cases h; exact ⟨[], rfl, rfl⟩
  | cons i is ih =>
    constructor
    · rintro ⟨vs, h1, h2⟩
      unfold mapPy at h1
      obtain ⟨v, h3, h1⟩ := bindOk h1
      obtain ⟨vs', h4, h1⟩ := bindOk h1
      cases h1
      cases v with
      | none => cases h2
      | some v =>
        simp only [joinBlank] at h2
        obtain ⟨ws', h5, h2⟩ := bindOk h2
        cases h2
        exact .cons h3 (ih.1 ⟨vs', h4, h5⟩)
    · intro h
      cases h with
      | cons h1 h2 =>
        obtain ⟨vs, h3, h4⟩ := ih.2 h2
        exact ⟨_ :: vs, by simp only [mapPy, h1, h3, bind, Except.bind]; rfl, by simp only [joinBlank, h4, bind, Except.bind]⟩

/-- **C163**, what is in the cell, and that there is an exception in all other cases -/
theorem C163_cell (n : Nat) (igt : Obj) (c : Cell) : defaultInput n igt = .ok c ↔ Input n igt c := by
  unfold defaultInput
  simp only [nextOf_eq, bind, Except.bind]
  constructor
  · intro h
    split at h
    · rename_i t ht
      have ht := find_some.1 ht
      split at h
      · cases h
      · rename_i hk
        cases h
        exact .phrase ht hk
    · rename_i hp
      have hp := find_none.1 hp
      split at h
      · rename_i hw
        cases h
        exact .nothing hp (find_none.1 hw)
      · rename_i t ht
        obtain ⟨vs, h1, h⟩ := bindOk h
        obtain ⟨ws, h2, h⟩ := bindOk h
        cases h
        rw [join_intercalate]
        exact .words hp (find_some.1 ht) (values_iff.1 ⟨vs, h1, h2⟩)
  · intro h
    cases h with
    | phrase h1 h2 => simp only [find_some.2 h1, h2]
    | words h1 h2 h3 =>
      obtain ⟨vs, h4, h5⟩ := values_iff.2 h3
      simp only [find_none.2 h1, find_some.2 h2, h4, h5, join_intercalate]
    | nothing h1 h2 => simp only [find_none.2 h1, find_none.2 h2]

/-- **C163** (partial: without phrases), every row of the default configuration: the number, and the words with blanks between them -/
theorem C163_partial (n : Nat) (other : Str → Obj → Py Cell) (xc : Obj) (rs : List (Dict Str (Val Cell)))
    (h : exportCorpus (evalDefault n other) defaultConf xc = .ok rs) : rs.length = xc.kids.length ∧
    ∀ (k : Nat) (igt : Obj) (r : Dict Str (Val Cell)), xc.kids[k]? = some igt → rs[k]? = some r →
      Dict.get? r IID = some (.num (10 * k)) ∧ ∃ c, Input n igt c ∧ Dict.get? r I_INPUT = some (.val c) ∧
        (NoneOf PHRASES igt.kids → ∀ t, FirstOf WORDS igt.kids t →
          ∃ vs, All2 (fun i v => value n (some igt) (some t) i = .ok (some v)) t.kids vs ∧ c = .text (List.intercalate [' '] vs)) := by
  have hk : ∀ c ∈ defaultConf.cells, c.1 ≠ IID := by
    intro c hc
    simp only [defaultConf, List.mem_singleton] at hc
    subst hc
    decide
  obtain ⟨h1, h2, -⟩ := C61_numbers _ h hk
  refine ⟨h1, fun k igt r hi hr => ⟨?_, ?_⟩⟩
  · have := h2 k r hr
    rw [this]
    simp only [defaultConf, Option.some.injEq, Val.num.injEq]
    omega
  · obtain ⟨c, h3, h4⟩ := C61_partial _ h (m := DEFAULT_INPUT) (by simp [defaultConf]) hi hr (c := (I_INPUT, DEFAULT_INPUT)) (by simp [defaultConf])
    rw [evalDefault, if_pos rfl, C163_cell] at h3
    refine ⟨c, h3, h4, fun hn t ht => ?_⟩
    cases h3 with
    | phrase h5 =>
      obtain ⟨pre, post, e, h5, -⟩ := h5
      exact absurd h5 (hn _ (by rw [e]; simp))
    | words h5 h6 h7 =>
      rename_i t' vs
      have : t' = t := by
        have a := find_some.2 h6
        rw [find_some.2 ht] at a
        exact (Option.some.inj a).symm
      subst this
      exact ⟨vs, h7, rfl⟩
    | nothing h5 h6 =>
      obtain ⟨pre, post, e, h7, -⟩ := ht
      exact absurd h7 (h6 _ (by rw [e]; simp))

omit [Uni] in
theorem blank_split : ∀ {a b x y : Str}, ' ' ∉ a → ' ' ∉ b → a ++ ' ' :: x = b ++ ' ' :: y → a = b ∧ x = y := by
  intro a
  induction a with
  | nil =>
    intro b x y _ hb h
    cases b with
    | nil => simp at h; exact ⟨rfl, h⟩
    | cons c b => simp at h; simp [← h.1] at hb
  | cons c a ih =>
    intro b x y ha hb h
    cases b with
    | nil => simp at h; simp [h.1] at ha
    | cons d b =>
      simp only [List.cons_append, List.cons.injEq] at h
      obtain ⟨h1, h2⟩ := ih (fun hh => ha (List.mem_cons_of_mem _ hh)) (fun hh => hb (List.mem_cons_of_mem _ hh)) h.2
      exact ⟨by rw [h.1, h1], h2⟩

omit [Uni] in
/-- **C163**, the words can be read from the cell: they are the same if the text is, if none of them is empty or has a blank in it -/
theorem C163_words : ∀ (vs ws : List Str), (∀ v ∈ vs, v ≠ [] ∧ ' ' ∉ v) → (∀ w ∈ ws, w ≠ [] ∧ ' ' ∉ w) →
    List.intercalate [' '] vs = List.intercalate [' '] ws → vs = ws := by
  have two : ∀ (x y : Str) (l : List Str), List.intercalate [' '] (x :: y :: l) = x ++ ' ' :: List.intercalate [' '] (y :: l) := by
    intro x y l
    simp [List.intercalate, List.intersperse]
  have one : ∀ x : Str, List.intercalate [' '] [x] = x := by intro x; simp [List.intercalate]
  intro vs
  induction vs with
  | nil =>
    intro ws _ hw h
    cases ws with
    | nil => rfl
    | cons w ws =>
      exfalso
      apply (hw w (List.mem_cons_self ..)).1
      cases ws with
      | nil => rw [one] at h; exact h.symm
      | cons u ws => rw [two] at h; simp [List.intercalate] at h
  | cons v vs ih =>
    intro ws hv hw h
    cases ws with
    | nil =>
      exfalso
      apply (hv v (List.mem_cons_self ..)).1
      cases vs with
      | nil => rw [one] at h; exact h
      | cons u vs => rw [two] at h; simp [List.intercalate] at h
    | cons w ws =>
      have hv1 := (hv v (List.mem_cons_self ..)).2
      have hw1 := (hw w (List.mem_cons_self ..)).2
      cases vs with
      | nil =>
        cases ws with
        | nil => rw [one, one] at h; rw [h]
        | cons u ws => rw [one, two] at h; rw [h] at hv1; simp at hv1
      | cons u vs =>
        cases ws with
        | nil => rw [one, two] at h; rw [← h] at hw1; simp at hw1
        | cons u' ws =>
          rw [two, two] at h
          obtain ⟨rfl, h5⟩ := blank_split hv1 hw1 h
          rw [ih (u' :: ws) (fun x hx => hv x (List.mem_cons_of_mem _ hx)) (fun x hx => hw x (List.mem_cons_of_mem _ hx)) h5]

/-- the same in the cells of two IGTs: the same text, or items with the same data in tiers with the same data -/
def SameCell : Cell → Cell → Prop
  | .item t i, .item t' i' => Sm t t' ∧ Sm i i'
  | .text s, .text s' => s = s'
  | _, _ => False

theorem find_same {ty : Str} : ∀ {l l' : List Obj}, SmL l l' →
    SmO (l.find? fun x => decide (x.data.type = some ty)) (l'.find? fun x => decide (x.data.type = some ty)) := by
  intro l
  induction l with
  | nil =>
    intro l' h
    cases l' with
    | nil => trivial
    | cons y l' => cases h.1
  | cons x l ih =>
    intro l' h
    cases l' with
    | nil => cases h.1
    | cons y l' =>
      have h0 : Sm x y := h.2 0 x y rfl rfl
      have hr : SmL l l' := ⟨by simpa using h.1, fun i a b ha hb => h.2 (i + 1) a b (by simpa using ha) (by simpa using hb)⟩
      simp only [List.find?_cons, ← h0.type]
      split
      · exact h0
      · exact ih hr

theorem values_same (n : Nat) {g g' t t' : Obj} (hg : Sm g g') (ht : Sm t t') : ∀ {l l' : List Obj}, SmL l l' →
    mapPy (fun i => value n (some g) (some t) i) l = mapPy (fun i => value n (some g') (some t') i) l' := by
  intro l
  induction l with
  | nil =>
    intro l' h
    cases l' with
    | nil => rfl
    | cons y l' => cases h.1
  | cons x l ih =>
    intro l' h
    cases l' with
    | nil => cases h.1
    | cons y l' =>
      have h0 : Sm x y := h.2 0 x y rfl rfl
      have hr : SmL l l' := ⟨by simpa using h.1, fun i a b ha hb => h.2 (i + 1) a b (by simpa using ha) (by simpa using hb)⟩
      simp only [mapPy, value_same n (some g) (some g') (some t) (some t') x y hg ht h0, ih hr]

/-- **C163**, equal IGTs (`==`): the cells are the same, or there is the same exception. -/
theorem C163_equal (n : Nat) (g g' : Obj) (hg : g.WF) (hg' : g'.WF) (hc : g.cls = g'.cls) (he : Obj.eq g g' = true) :
    match defaultInput n g, defaultInput n g' with
    | .ok c, .ok c' => SameCell c c'
    | .error e, .error e' => e = e'
    | _, _ => False := by
  have h : Sm g g' := ⟨(C10_eq_is_same_data g g' hg hg' hc).1 he, hg⟩
  have hp := find_same (ty := PHRASES) h.kids
  have hw := find_same (ty := WORDS) h.kids
  unfold defaultInput
  simp only [nextOf_eq, bind, Except.bind]
  cases h1 : g.kids.find? fun x => decide (x.data.type = some PHRASES) with
  | some t =>
    cases h2 : g'.kids.find? fun x => decide (x.data.type = some PHRASES) with
    | none => rw [h1, h2] at hp; exact hp.elim
    | some t' =>
      rw [h1, h2] at hp
      have hp : Sm t t' := hp
      have hk := hp.kids
      cases h3 : t.kids with
      | nil =>
        cases h4 : t'.kids with
        | nil => simp only [h3, h4]
        | cons y l => rw [h3, h4] at hk; cases hk.1
      | cons x l =>
        cases h4 : t'.kids with
        | nil => rw [h3, h4] at hk; cases hk.1
        | cons y l' =>
          rw [h3, h4] at hk
          simp only [h3, h4]
          exact ⟨hp, hk.2 0 x y rfl rfl⟩
  | none =>
    cases h2 : g'.kids.find? fun x => decide (x.data.type = some PHRASES) with
    | some t' => rw [h1, h2] at hp; exact hp.elim
    | none =>
      cases h3 : g.kids.find? fun x => decide (x.data.type = some WORDS) with
      | none =>
        cases h4 : g'.kids.find? fun x => decide (x.data.type = some WORDS) with
        | some t' => rw [h3, h4] at hw; exact hw.elim
        | none => simp [SameCell]
      | some t =>
        cases h4 : g'.kids.find? fun x => decide (x.data.type = some WORDS) with
        | none => rw [h3, h4] at hw; exact hw.elim
        | some t' =>
          rw [h3, h4] at hw
          have hw : Sm t t' := hw
          simp only [values_same n h hw hw.kids]
          cases mapPy (fun i => value n (some g') (some t') i) t'.kids with
          | error e => simp
          | ok vs =>
            simp only
            cases joinBlank vs with
            | error e => simp
            | ok ws => simp [SameCell]

/-- **C163** fails for what is imported from ODIN: there are lines but neither phrases nor words, so the cell is always empty. -/
theorem C163_refuted_odin (title : Str → Str) (o : Odin.Opts) (b : Odin.Block) (doc first last types : Str) (x : Obj)
    (h : Odin.Imported title o b doc first last types x) (n : Nat) : defaultInput n x = .ok (.text []) := by
  obtain ⟨t, h1, h2, -⟩ := h.tier
  rw [C163_cell]
  refine .nothing ?_ ?_ <;> intro u hu <;> rw [h1, List.mem_singleton] at hu <;> subst hu <;> rw [h2] <;> decide

/-- C163 is false with phrases, of every IGT that has them: the cell is not a text but an Item. -/
theorem C163_refuted (n : Nat) (igt t : Obj) (h : FirstOf PHRASES igt.kids t) (s : Str) : defaultInput n igt ≠ .ok (.text s) := by
  intro hc
  rw [C163_cell] at hc
  obtain ⟨pre, post, e, h1, -⟩ := h
  cases hc with
  | words h2 => exact h2 t (by rw [e]; simp) h1
  | nothing h2 => exact h2 t (by rw [e]; simp) h1

end

section
attribute [local instance] asciiUni

def exWord (i s : Str) : Obj := .mk { cls := .item, id := some i, text := some s } [] []
def exInput (ph : List Obj) : Obj := .mk { cls := .igt, id := some (lit! "i1") } [] (ph ++
  [.mk { cls := .tier, id := some (lit! "w"), type := some (lit! "words") } [] [exWord (lit! "w1") (lit! "the"), exWord (lit! "w2") (lit! "dog")]])
def exPhrases (is : List Obj) : Obj := .mk { cls := .tier, id := some (lit! "p"), type := some (lit! "phrases") } [] is

/-- the text of a cell -/
def cellText : Py Cell → Option Str
  | .ok (.text s) => some s
  | _ => none

/-- C163 is false with an empty tier of phrases: an IndexError, though there are words. -/
theorem C163_refuted_empty : ∃ igt t, FirstOf WORDS igt.kids t ∧ t.kids ≠ [] ∧ ∀ n, defaultInput n igt = .error .indexError :=
  ⟨exInput [exPhrases []], _, ⟨[exPhrases []], [], rfl, rfl, by intro u hu; rw [List.mem_singleton.1 hu]; decide⟩, by simp [Obj.kids], fun n => by
    unfold defaultInput; simp only [nextOf_eq, bind, Except.bind]; rfl⟩

/-- words, and a phrase that takes precedence -/
example : cellText (defaultInput 9 (exInput [])) = some (lit! "the dog") ∧ NoneOf PHRASES (exInput []).kids ∧
    cellText (defaultInput 9 (exInput [exPhrases [exWord (lit! "p1") (lit! "the dog")]])) = none := by
  refine ⟨by decide +kernel, ?_, by decide +kernel⟩
  intro u hu
  simp only [exInput, Obj.kids, List.nil_append, List.mem_singleton] at hu
  subst hu
  decide

/-- the hypothesis of C163_partial is met -/
example : (match exportCorpus (evalDefault 9 fun _ _ => .error .valueError) defaultConf (.mk { cls := .corpus } [] [exInput [], exInput []]) with
    | .ok rs => rs.length
    | .error _ => 0) = 2 := by decide +kernel

end
end Xigt.Tsdb
