import Verif.Tree.Model
import Verif.DictLemmas
/-
The [incr tsdb()] exporter, /repo/xigt/exporters/itsdb.py, and C61.

Finding the Relations file (itsdb.py:24-27, 40-48) is in Files/Itsdb.lean.  Not modelled: writing the profile, which is done by the
third-party module delphin.itsdb.  The expressions in the configuration are evaluated by Python; here evaluation
is an arbitrary function that may fail.
-/
set_option linter.unusedSectionVars false

namespace Xigt.Tsdb

/-! ### Model -/

/-- what is in a row: a number, or the value of an expression -/
inductive Val (V : Type) where
  | num (n : Int)
  | val (v : V)

/-- the configuration: itsdb.py:37-38, 50 -/
structure Conf where
  start : Int := 0
  skip : Int := 10
  cells : List (Str × Str)

/-- itsdb.py:51-52.  All functions made in the comprehension share its variable `mapper`, so when they are called
it has its last value. -/
def prepare (cells : List (Str × Str)) : List (Str × Str) :=
  match cells.getLast? with
  | none => []
  | some m => cells.map fun c => (c.1, m.2)

/-- the key of the number of the row -/
def IID : Str := lit! "i-id"

section
variable {V : Type} (ev : Str → Obj → Py V)

/-- itsdb.py:66-73: the cells -/
def fillRow (igt : Obj) : List (Str × Str) → Dict Str (Val V) → Py (Dict Str (Val V))
  | [], row => .ok row
  | c :: cs, row => do
    let v ← ev c.2 igt
    fillRow igt cs (row.set c.1 (.val v))

/-- itsdb.py:64-74 `export_igt` -/
def exportIgt (igt : Obj) (n : Int) (cells : List (Str × Str)) : Py (Dict Str (Val V)) :=
  fillRow ev igt cells [(IID, .num n)]

/-- itsdb.py:55-62 `export_corpus`, from the `i`-th IGT on -/
def exportFrom (cf : Conf) : Nat → List Obj → Py (List (Dict Str (Val V)))
  | _, [] => .ok []
  | i, x :: xs => do
    let r ← exportIgt ev x (cf.start + i * cf.skip) (prepare cf.cells)
    let rs ← exportFrom cf (i + 1) xs
    .ok (r :: rs)

/-- itsdb.py:23-32 `xigt_export`: the rows -/
def exportCorpus (cf : Conf) (xc : Obj) : Py (List (Dict Str (Val V))) := exportFrom ev cf 0 xc.kids

/-! ### Properties -/

theorem fill_get {igt : Obj} {cells : List (Str × Str)} {row row' : Dict Str (Val V)} (h : fillRow ev igt cells row = .ok row')
    {k : Str} (hk : ∀ c ∈ cells, c.1 ≠ k) : Dict.get? row' k = Dict.get? row k := by
  induction cells generalizing row with
  | nil => cases h; rfl
  | cons c cs ih =>
    simp only [fillRow, bind, Except.bind] at h
    split at h
    · cases h
    · rw [ih h (fun d hd => hk d (List.mem_cons_of_mem _ hd)), Dict.get?_set, if_neg]
      exact fun e => hk c (by simp) e

theorem fill_cell {igt : Obj} {m : Str} {cells : List (Str × Str)} (hm : ∀ c ∈ cells, c.2 = m) {row row' : Dict Str (Val V)}
    (h : fillRow ev igt cells row = .ok row') {c : Str × Str} (hc : c ∈ cells) :
    ∃ v, ev m igt = .ok v ∧ Dict.get? row' c.1 = some (.val v) := by
  induction cells generalizing row c with
  | nil => cases hc
  | cons d cs ih =>
    simp only [fillRow, bind, Except.bind] at h
    split at h
    · cases h
    rename_i v hv
    rw [hm d (by simp)] at hv
    by_cases hin : ∃ e ∈ cs, e.1 = c.1
    · obtain ⟨e, he, hec⟩ := hin
      obtain ⟨w, w1, w2⟩ := ih (fun x hx => hm x (List.mem_cons_of_mem _ hx)) h he
      exact ⟨w, w1, by rw [← hec]; exact w2⟩
    · refine ⟨v, hv, ?_⟩
      rw [fill_get ev h (fun e he e' => hin ⟨e, he, e'⟩), Dict.get?_set]
      rcases List.mem_cons.1 hc with rfl | hc
      · rw [if_pos rfl]
      · exact absurd ⟨c, hc, rfl⟩ hin

theorem from_get {cf : Conf} {xs : List Obj} {i : Nat} {rs : List (Dict Str (Val V))} (h : exportFrom ev cf i xs = .ok rs) :
    rs.length = xs.length ∧ ∀ (n : Nat) (x : Obj) (r : Dict Str (Val V)), xs[n]? = some x → rs[n]? = some r →
      exportIgt ev x (cf.start + ((i + n : Nat) : Int) * cf.skip) (prepare cf.cells) = .ok r := by
  induction xs generalizing i rs with
  | nil => cases h; exact ⟨rfl, by simp⟩
  | cons x xs ih =>
    simp only [exportFrom, bind, Except.bind] at h
    split at h
    · cases h
    rename_i r hr
    split at h
    · cases h
    rename_i rs' hrs
    cases h
    obtain ⟨h1, h2⟩ := ih hrs
    refine ⟨by simp [h1], ?_⟩
    intro n y r' hy hr'
    cases n with
    | zero =>
      cases hy
      cases hr'
      exact hr
    | succ n =>
      rw [List.getElem?_cons_succ] at hy hr'
      rw [show i + (n + 1) = i + 1 + n by omega]
      exact h2 n y r' hy hr'

/-- C61, the numbers: if no cell is called `i-id`, the rows are those of the IGTs in order, with the numbers start, start + skip, ...;
with a positive skip they increase (so they are distinct) -/
theorem C61_numbers {cf : Conf} {xc : Obj} {rs : List (Dict Str (Val V))} (h : exportCorpus ev cf xc = .ok rs) (hk : ∀ c ∈ cf.cells, c.1 ≠ IID) :
    rs.length = xc.kids.length ∧ (∀ (n : Nat) (r : Dict Str (Val V)), rs[n]? = some r → Dict.get? r IID = some (.num (cf.start + n * cf.skip))) ∧
    (0 < cf.skip → ∀ (n n' : Nat), n < n' → cf.start + n * cf.skip < cf.start + n' * cf.skip) := by
  obtain ⟨h1, h2⟩ := from_get ev h
  refine ⟨h1, ?_, ?_⟩
  · intro n r hr
    have hlt : n < xc.kids.length := by
      rw [← h1]
      exact (List.getElem?_eq_some_iff.1 hr).1
    have := h2 n _ r (List.getElem?_eq_getElem hlt) hr
    unfold exportIgt at this
    rw [fill_get ev this, Nat.zero_add]
    · rfl
    · intro c hc
      unfold prepare at hc
      split at hc
      · cases hc
      · obtain ⟨d, hd, rfl⟩ := List.mem_map.1 hc
        exact hk d hd
  · intro hs n n' hn
    have h3 : (n : Int) < (n' : Int) := by exact_mod_cast hn
    have := Int.mul_lt_mul_of_pos_right h3 hs
    omega

/-- C61, the cells (partial: of a configuration with one expression only, as the default one): each cell has the value of its
expression.  What is missing is refuted below. -/
theorem C61_partial {cf : Conf} {xc : Obj} {rs : List (Dict Str (Val V))} (h : exportCorpus ev cf xc = .ok rs) {m : Str}
    (hm : ∀ c ∈ cf.cells, c.2 = m) {n : Nat} {x : Obj} {r : Dict Str (Val V)} (hx : xc.kids[n]? = some x) (hr : rs[n]? = some r)
    {c : Str × Str} (hc : c ∈ cf.cells) : ∃ v, ev c.2 x = .ok v ∧ Dict.get? r c.1 = some (.val v) := by
  have := (from_get ev h).2 n x r hx hr
  unfold exportIgt at this
  have hp : prepare cf.cells = cf.cells := by
    unfold prepare
    split
    · rename_i e
      rw [List.getLast?_eq_none_iff] at e
      rw [e]
    · rename_i l hl
      have hlm := hm l (List.mem_of_getLast? hl)
      conv => rhs; rw [← List.map_id cf.cells]
      apply List.map_congr_left
      intro d hd
      rw [hlm, ← hm d hd]
      rfl
  rw [hp] at this
  obtain ⟨v, h1, h2⟩ := fill_cell ev hm this hc
  exact ⟨v, by rw [hm c hc]; exact h1, h2⟩

/-- what holds instead: every cell has the value of the last expression -/
theorem C61_last {cf : Conf} {xc : Obj} {rs : List (Dict Str (Val V))} (h : exportCorpus ev cf xc = .ok rs) {l : Str × Str}
    (hl : cf.cells.getLast? = some l) {n : Nat} {x : Obj} {r : Dict Str (Val V)} (hx : xc.kids[n]? = some x) (hr : rs[n]? = some r)
    {c : Str × Str} (hc : c ∈ cf.cells) : ∃ v, ev l.2 x = .ok v ∧ Dict.get? r c.1 = some (.val v) := by
  have := (from_get ev h).2 n x r hx hr
  unfold exportIgt prepare at this
  rw [hl] at this
  exact fill_cell ev (m := l.2) (c := (c.1, l.2)) (by
    intro d hd
    obtain ⟨e, _, rfl⟩ := List.mem_map.1 hd
    rfl) this (List.mem_map.2 ⟨c, hc, rfl⟩)

end

/-! ### Examples -/

def exIgt : Obj := .mk { cls := .igt, id := some (lit! "i1") } [] []
def exCorpus : Obj := .mk { cls := .corpus } [] [exIgt, exIgt]

/-- expressions that are evaluated to themselves -/
def quote (e : Str) (_ : Obj) : Py Str := .ok e

/-- the hypotheses are met -/
example : ∃ rs, exportCorpus quote { cells := [(lit! "i-input", lit! "a")] } exCorpus = .ok rs ∧
    rs.map (fun r => Dict.get? r (lit! "i-input")) = [some (.val (lit! "a")), some (.val (lit! "a"))] := ⟨_, rfl, rfl⟩

/-- C61 is false: with two cells both have the value of the second expression. -/
theorem C61_refuted : ∃ cells rs r, exportCorpus quote { cells := cells } exCorpus = .ok rs ∧ (lit! "i-wf", lit! "1") ∈ cells ∧ rs[0]? = some r ∧
    Dict.get? r (lit! "i-wf") = some (.val (lit! "x")) ∧ quote (lit! "1") exIgt = .ok (lit! "1") :=
  ⟨[(lit! "i-wf", lit! "1"), (lit! "i-input", lit! "x")], _, _, rfl, by simp, rfl, rfl, rfl⟩

/-- C61 is false: with a skip of 0 all rows have the same number. -/
theorem C61_refuted_skip : ∃ rs, exportCorpus quote { skip := 0, cells := [(lit! "i-input", lit! "a")] } exCorpus = .ok rs ∧
    rs.map (fun r => Dict.get? r IID) = [some (.num 0), some (.num 0)] := ⟨_, rfl, rfl⟩

end Xigt.Tsdb
