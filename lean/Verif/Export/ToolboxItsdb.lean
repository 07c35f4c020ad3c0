import Verif.Xml.AttrSort
import Verif.Export.ItsdbDefault
import Verif.Import.ToolboxNames
/-
C174: exporting to [incr tsdb()] (/repo/xigt/exporters/itsdb.py, C163) what was imported from Toolbox (/repo/xigt/importers/toolbox.py, C72, C92).

There is no new model here.
-/
set_option linter.unusedSectionVars false

namespace Xigt.Tbx
open Xigt.Tsdb (NoneOf PHRASES Cell defaultInput I_INPUT IID exportCorpus evalDefault defaultConf)

/-! ### Specification -/

/-- the options: one tier of words, no tier of phrases but the one made of the words, if any -/
structure WordOpts (o : Opts) (wid : Str) : Prop where
  words : Dict.get? o.tierTypes wid = some (some WORDS)
  only : ∀ tid, Dict.get? o.tierTypes tid = some (some WORDS) → tid = wid
  phrases : ∀ mkr tid, Dict.get? o.tierMap mkr = some tid → Dict.get? o.tierTypes tid ≠ some (some (lit! "phrases"))
  made : ∀ tid pid, o.phrase = some (tid, pid) → tid = wid

/-- the field is a line of words -/
def IsWords (o : Opts) (wid : Str) (f : Py Field) : Prop := ∃ mkr aln, f = .ok (mkr, aln) ∧ Dict.get? o.tierMap mkr = some wid

/-- the tokens of the first line of words of the record -/
def FirstWords (o : Opts) (wid : Str) (fs : List (Py Field)) (toks : List Str) : Prop :=
  ∃ pre mkr aln post, fs = pre ++ .ok (mkr, aln) :: post ∧ Dict.get? o.tierMap mkr = some wid ∧ (∀ f ∈ pre, ¬ IsWords o wid f) ∧ toks = tokens aln

/-- the string in the cell, or the text of the Item in it -/
def spelled : Cell → Option Str
  | .text s => some s
  | .item _ it => it.data.text

/-- the cell for the record: the words, joined by blanks; nothing if there is no line of words -/
structure CellOf (o : Opts) (wid : Str) (r : Record) (c : Cell) : Prop where
  words : ∀ toks, FirstWords o wid r.fields toks → spelled c = some (List.intercalate [' '] toks)
  nothing : (∀ f ∈ r.fields, ¬ IsWords o wid f) → c = .text []
  text : o.phrase = none → ∃ s, c = .text s

/-! ### Properties -/

theorem firstWords_cons {o : Opts} {wid mkr : Str} {aln : List Aln} {fs : List (Py Field)} {toks : List Str}
    (h : FirstWords o wid (.ok (mkr, aln) :: fs) toks) :
    (Dict.get? o.tierMap mkr = some wid ∧ toks = tokens aln) ∨ (Dict.get? o.tierMap mkr ≠ some wid ∧ FirstWords o wid fs toks) := by
  obtain ⟨pre, m, a, post, e, h1, h2, h3⟩ := h
  cases pre with
  | nil =>
    rw [List.nil_append] at e
    cases e
    exact .inl ⟨h1, h3⟩
  | cons f pre =>
    rw [List.cons_append] at e
    cases e
    exact .inr ⟨fun h => h2 _ (List.mem_cons_self ..) ⟨mkr, aln, rfl, h⟩, pre, m, a, post, rfl, h1, fun f hf => h2 f (List.mem_cons_of_mem _ hf), h3⟩

theorem first_cons {ty : Str} {x t : Obj} {ts : List Obj} (hx : x.data.type ≠ some ty) (h : Tsdb.FirstOf ty ts t) : Tsdb.FirstOf ty (x :: ts) t := by
  obtain ⟨pre, post, e, h1, h2⟩ := h
  refine ⟨x :: pre, post, by rw [e]; rfl, h1, fun u hu => ?_⟩
  rcases List.mem_cons.1 hu with rfl | hu
  · exact hx
  · exact h2 u hu

theorem first_head {ty : Str} {t : Obj} {ts : List Obj} (h : t.data.type = some ty) : Tsdb.FirstOf ty (t :: ts) t :=
  ⟨[], ts, rfl, h, by intro u hu; cases hu⟩

theorem none_cons {ty : Str} {x : Obj} {ts : List Obj} (hx : x.data.type ≠ some ty) (h : NoneOf ty ts) : NoneOf ty (x :: ts) := by
  intro u hu
  rcases List.mem_cons.1 hu with rfl | hu
  · exact hx
  · exact h u hu

/-- without a line of words there are neither words nor phrases -/
theorem tiers_nothing {o : Opts} {wid : Str} (ho : WordOpts o wid) {fs : List (Py Field)} {ts : List Obj} (h : Imported o fs ts)
    (hn : ∀ f ∈ fs, ¬ IsWords o wid f) : NoneOf PHRASES ts ∧ NoneOf Tsdb.WORDS ts := by
  induction h with
  | nil => constructor <;> (intro u hu; cases hu)
  | skip _ _ ih => exact ih fun f hf => hn f (List.mem_cons_of_mem _ hf)
  | phrase h1 h2 _ _ _ _ _ _ => exact absurd ⟨_, _, rfl, ho.made _ _ h2 ▸ h1⟩ (hn _ (List.mem_cons_self ..))
  | @tier mkr aln fs tid t ts h1 h2 h3 h4 _ ih =>
    obtain ⟨i1, i2⟩ := ih fun f hf => hn f (List.mem_cons_of_mem _ hf)
    refine ⟨none_cons (fun h => ho.phrases _ _ h1 (by rw [h4, h]; rfl)) i1, none_cons (fun h => ?_) i2⟩
    exact hn _ (List.mem_cons_self ..) ⟨_, _, rfl, ho.only tid (by rw [h4, h]; rfl) ▸ h1⟩

/-- with phrases: the first has the words as its only text -/
theorem tiers_phrase {o : Opts} {wid pid : Str} (ho : WordOpts o wid) (hp : o.phrase = some (wid, pid)) {fs : List (Py Field)} {ts : List Obj}
    (h : Imported o fs ts) {toks : List Str} (hw : FirstWords o wid fs toks) :
    ∃ p, Tsdb.FirstOf PHRASES ts p ∧ p.kids.map (fun x => x.data.text) = [some (join [' '] toks)] := by
  induction h with
  | nil => obtain ⟨pre, _, _, _, e, _⟩ := hw; cases pre <;> cases e
  | skip h1 _ ih =>
    rcases firstWords_cons hw with ⟨h2, _⟩ | ⟨_, h2⟩
    · rw [h1] at h2; cases h2
    · exact ih h2
  | phrase h1 h2 h3 h4 _ _ _ _ =>
    rcases firstWords_cons hw with ⟨_, rfl⟩ | ⟨h5, _⟩
    · exact ⟨_, first_head h4, h3.texts⟩
    · exact absurd (ho.made _ _ h2 ▸ h1) h5
  | tier h1 h2 _ h4 _ ih =>
    rcases firstWords_cons hw with ⟨h5, _⟩ | ⟨_, h5⟩
    · rw [h1] at h5
      cases h5
      exact absurd hp (h2 pid)
    · obtain ⟨p, i1, i2⟩ := ih h5
      exact ⟨p, first_cons (fun h => ho.phrases _ _ h1 (by rw [h4, h]; rfl)) i1, i2⟩

/-- without phrases: the first tier of words has the words -/
theorem tiers_words {o : Opts} {wid : Str} (ho : WordOpts o wid) (hp : o.phrase = none) {fs : List (Py Field)} {ts : List Obj}
    (h : Imported o fs ts) : NoneOf PHRASES ts ∧ ∀ toks, FirstWords o wid fs toks →
      ∃ t, Tsdb.FirstOf Tsdb.WORDS ts t ∧ t.kids.map (fun x => x.data.text) = toks.map some := by
  induction h with
  | nil =>
    refine ⟨fun u hu => (by cases hu), ?_⟩
    rintro toks ⟨pre, _, _, _, e, _⟩
    cases pre <;> cases e
  | skip h1 _ ih =>
    refine ⟨ih.1, fun toks hw => ?_⟩
    rcases firstWords_cons hw with ⟨h2, _⟩ | ⟨_, h2⟩
    · rw [h1] at h2; cases h2
    · exact ih.2 toks h2
  | phrase h1 h2 _ _ _ _ _ _ => rw [hp] at h2; cases h2
  | @tier mkr aln fs tid t ts h1 _ h3 h4 _ ih =>
    refine ⟨none_cons (fun h => ho.phrases _ _ h1 (by rw [h4, h]; rfl)) ih.1, fun toks hw => ?_⟩
    rcases firstWords_cons hw with ⟨h5, rfl⟩ | ⟨h6, h5⟩
    · rw [h1] at h5
      cases h5
      refine ⟨t, first_head ?_, h3.texts⟩
      have := ho.words
      rw [h4] at this
      exact Option.some.inj this
    · obtain ⟨w, i1, i2⟩ := ih.2 toks h5
      refine ⟨w, first_cons (fun h => h6 ?_) i1, i2⟩
      rw [h1, ho.only tid (by rw [h4, h]; rfl)]

theorem firstWords_or (o : Opts) (wid : Str) : ∀ fs : List (Py Field), (∃ toks, FirstWords o wid fs toks) ∨ ∀ f ∈ fs, ¬ IsWords o wid f := by
  intro fs
  induction fs with
  | nil => right; intro f hf; cases hf
  | cons f fs ih =>
    by_cases h : IsWords o wid f
    · left
      obtain ⟨mkr, aln, rfl, h⟩ := h
      exact ⟨_, [], mkr, aln, fs, rfl, h, by intro f hf; (cases hf), rfl⟩
    · rcases ih with ⟨toks, pre, mkr, aln, post, rfl, h1, h2, h3⟩ | ih
      · left
        refine ⟨toks, f :: pre, mkr, aln, post, rfl, h1, fun g hg => ?_, h3⟩
        rcases List.mem_cons.1 hg with rfl | hg
        · exact h
        · exact h2 g hg
      · right
        intro g hg
        rcases List.mem_cons.1 hg with rfl | hg
        · exact h
        · exact ih g hg

theorem firstWords_not {o : Opts} {wid : Str} {fs : List (Py Field)} {toks : List Str} (h : FirstWords o wid fs toks)
    (hn : ∀ f ∈ fs, ¬ IsWords o wid f) : False := by
  obtain ⟨pre, mkr, aln, post, rfl, h1, -, -⟩ := h
  exact hn _ (by simp) ⟨mkr, aln, rfl, h1⟩

theorem firstWords_unique {o : Opts} {wid : Str} {fs : List (Py Field)} {a b : List Str} (ha : FirstWords o wid fs a) (hb : FirstWords o wid fs b) :
    a = b := by
  induction fs with
  | nil => obtain ⟨pre, _, _, _, e, _⟩ := ha; cases pre <;> cases e
  | cons f fs ih =>
    cases f with
    | error e =>
      have : ∀ c, FirstWords o wid (.error e :: fs) c → FirstWords o wid fs c := by
        rintro c ⟨pre, m, x, post, e', h1, h2, h3⟩
        cases pre with
        | nil => cases e'
        | cons g pre => cases e'; exact ⟨pre, m, x, post, rfl, h1, fun f hf => h2 f (List.mem_cons_of_mem _ hf), h3⟩
      exact ih (this _ ha) (this _ hb)
    | ok f =>
      rcases firstWords_cons ha with ⟨h1, rfl⟩ | ⟨h1, h2⟩ <;> rcases firstWords_cons hb with ⟨h3, rfl⟩ | ⟨h3, h4⟩
      · rfl
      · exact absurd h1 h3
      · exact absurd h3 h1
      · exact ih h2 h4

section
variable [Uni] [Lex]

theorem all2_texts (n : Nat) (igt t : Obj) : ∀ (is : List Obj) (ws : List Str), is.map (fun x => x.data.text) = ws.map some →
    All2 (fun i v => value (n + 1) (some igt) (some t) i = .ok (some v)) is ws := by
  intro is
  induction is with
  | nil => intro ws h; cases ws with
    | nil => exact .nil
    | cons w ws => cases h
  | cons i is ih =>
    intro ws h
    cases ws with
    | nil => cases h
    | cons w ws =>
      simp only [List.map_cons, List.cons.injEq] at h
      refine .cons ?_ (ih ws h.2)
      rw [value, h.1]

/-- **C174** (partial): the `i-input` of an IGT made of a record is the words of its line, joined by blanks: a string, or the Item with this text;
an empty string if there is no such line.  There is no exception. -/
theorem C174_partial (o : Opts) (wid : Str) (ho : WordOpts o wid) (n : Nat) (key : Str) (r : Record) (x : Obj) (hx : IsIgt o key r x) :
    ∃ c, defaultInput (n + 1) x = .ok c ∧ CellOf o wid r c := by
  rcases firstWords_or o wid r.fields with ⟨toks, hw⟩ | hn
  · cases hp : o.phrase with
    | none =>
      obtain ⟨h1, h2⟩ := tiers_words ho hp hx.tiers
      obtain ⟨t, h3, h4⟩ := h2 toks hw
      refine ⟨_, (Tsdb.C163_cell _ _ _).2 (.words h1 h3 (all2_texts n x t _ _ h4)), ?_, fun h => (firstWords_not hw h).elim, fun _ => ⟨_, rfl⟩⟩
      intro toks' hw'
      rw [firstWords_unique hw' hw]
      rfl
    | some q =>
      obtain ⟨tid, pid⟩ := q
      have := ho.made _ _ hp
      subst this
      obtain ⟨p, h1, h2⟩ := tiers_phrase ho hp hx.tiers hw
      cases hk : p.kids with
      | nil => rw [hk] at h2; cases h2
      | cons it its =>
        rw [hk] at h2
        simp only [List.map_cons, List.cons.injEq] at h2
        refine ⟨_, (Tsdb.C163_cell _ _ _).2 (.phrase h1 hk), ?_, fun h => (firstWords_not hw h).elim, fun h => by rw [hp] at h; cases h⟩
        intro toks' hw'
        rw [firstWords_unique hw' hw, spelled, h2.1, Tsdb.join_intercalate]
  · obtain ⟨h1, h2⟩ := tiers_nothing ho hx.tiers hn
    exact ⟨_, (Tsdb.C163_cell _ _ _).2 (.nothing h1 h2), fun toks hw => (firstWords_not hw hn).elim, fun _ => rfl, fun _ => ⟨_, rfl⟩⟩

/-- row by row -/
def RowsOf (o : Opts) (wid k : Str) (rs : List Record) (xs : List Obj) (rows : List (Dict Str (Tsdb.Val Cell))) : Prop :=
  rows.length = xs.length ∧ ∀ (j : Nat) (x : Obj) (row : Dict Str (Tsdb.Val Cell)), xs[j]? = some x → rows[j]? = some row →
    Dict.get? row IID = some (.num (10 * j)) ∧ ∃ r ∈ rs, ∃ key c, Dict.get? r.context k = some (some key) ∧ IsIgt o key r x ∧
      Dict.get? row I_INPUT = some (.val c) ∧ CellOf o wid r c

theorem fromRecords_mem {o : Opts} {k : Str} {rs : List Record} {xs : List Obj} (h : FromRecords o k rs xs) {x : Obj} (hx : x ∈ xs) :
    ∃ r ∈ rs, ∃ key, Dict.get? r.context k = some (some key) ∧ IsIgt o key r x := by
  induction h with
  | nil => cases hx
  | header _ _ ih => obtain ⟨r, hr, h⟩ := ih hx; exact ⟨r, List.mem_cons_of_mem _ hr, h⟩
  | unusable _ _ _ ih => obtain ⟨r, hr, h⟩ := ih hx; exact ⟨r, List.mem_cons_of_mem _ hr, h⟩
  | igt hk hi _ ih =>
    rcases List.mem_cons.1 hx with rfl | hx
    · exact ⟨_, List.mem_cons_self .., _, hk, hi⟩
    · obtain ⟨r, hr, h⟩ := ih hx; exact ⟨r, List.mem_cons_of_mem _ hr, h⟩

theorem exportFrom_ok (n : Nat) (other : Str → Obj → Py Cell) : ∀ (xs : List Obj) (i : Nat), (∀ x ∈ xs, ∃ c, defaultInput n x = .ok c) →
    ∃ rows, Tsdb.exportFrom (evalDefault n other) defaultConf i xs = .ok rows := by
  intro xs
  induction xs with
  | nil => intro i _; exact ⟨[], rfl⟩
  | cons x xs ih =>
    intro i h
    obtain ⟨c, hc⟩ := h x (List.mem_cons_self ..)
    obtain ⟨rows, hr⟩ := ih (i + 1) fun y hy => h y (List.mem_cons_of_mem _ hy)
    have hp : Tsdb.prepare defaultConf.cells = [(I_INPUT, Tsdb.DEFAULT_INPUT)] := rfl
    have he : evalDefault n other Tsdb.DEFAULT_INPUT x = .ok c := by rw [evalDefault, if_pos rfl, hc]
    simp only [Tsdb.exportFrom, Tsdb.exportIgt, hp, Tsdb.fillRow, he, hr, bind, Except.bind]
    exact ⟨_, rfl⟩

/-- **C174**: exporting what was imported succeeds, and there is a row for each IGT. -/
theorem C174_rows (o : Opts) (wid k : Str) (ho : WordOpts o wid) (rs : List Record) (xs : List Obj) (h : toolboxIgts o k rs = .ok xs) (n : Nat)
    (other : Str → Obj → Py Cell) (d : Data) (md : List Obj) :
    ∃ rows, exportCorpus (evalDefault (n + 1) other) defaultConf (.mk d md xs) = .ok rows ∧ RowsOf o wid k rs xs rows := by
  have hf := C92_igts o k rs xs h
  obtain ⟨rows, hrows⟩ := exportFrom_ok (n + 1) other xs 0 fun x hx => by
    obtain ⟨r, _, key, _, hi⟩ := fromRecords_mem hf hx
    obtain ⟨c, hc, _⟩ := C174_partial o wid ho n key r x hi
    exact ⟨c, hc⟩
  have hrows' : exportCorpus (evalDefault (n + 1) other) defaultConf (.mk d md xs) = .ok rows := hrows
  refine ⟨rows, hrows', ?_⟩
  obtain ⟨h1, h2⟩ := Tsdb.C163_partial (n + 1) other _ rows hrows'
  refine ⟨h1, fun j x row hx hr => ?_⟩
  obtain ⟨h3, c, h4, h5, -⟩ := h2 j x row hx hr
  obtain ⟨r, hr, key, hk, hi⟩ := fromRecords_mem hf (List.mem_of_getElem? hx)
  obtain ⟨c', hc, hcell⟩ := C174_partial o wid ho n key r x hi
  rw [(Tsdb.C163_cell _ _ _).2 h4] at hc
  cases hc
  exact ⟨h3, r, hr, key, c, hk, hi, h5, hcell⟩

/-- **C174** is false as stated: if a tier of phrases is made, which is so by default, the cell of a record with words is not a string. -/
theorem C174_refuted (o : Opts) (wid pid : Str) (ho : WordOpts o wid) (hp : o.phrase = some (wid, pid)) (n : Nat) (key : Str) (r : Record) (x : Obj)
    (hx : IsIgt o key r x) (toks : List Str) (hw : FirstWords o wid r.fields toks) (s : Str) : defaultInput n x ≠ .ok (.text s) := by
  obtain ⟨p, h1, _⟩ := tiers_phrase ho hp hx.tiers hw
  exact Tsdb.C163_refuted n x p h1 s

end

section
variable [Uni] [XmlLex] [Lex]

theorem cellOf_same {o : Opts} {wid : Str} {r : Record} {c c' : Cell} (h : CellOf o wid r c) (hs : Tsdb.SameCell c c') : CellOf o wid r c' := by
  cases c with
  | text s =>
    cases c' with
    | text s' => cases hs; exact h
    | item t i => exact hs.elim
  | item t i =>
    cases c' with
    | text s' => exact hs.elim
    | item t' i' =>
      have he : i.data.text = i'.data.text := (Vld.same_inv hs.2.1).2.1
      refine ⟨fun toks hw => ?_, fun hn => ?_, fun hp => ?_⟩
      · rw [← h.words toks hw, spelled, spelled, he]
      · cases h.nothing hn
      · obtain ⟨s, hs⟩ := h.text hp; cases hs

/-- **C174**, through a file: it is the same if the corpus was written to a file and read again. -/
theorem C174_file (o : Opts) (wid k : Str) (hw : WordOpts o wid) (ho : OptsOK o) (rs : List Record) (hr : ∀ r ∈ rs, RecordOK o k r) (xs : List Obj)
    (h : toolboxIgts o k rs = .ok xs) (hd : (xs.map fun x => x.data.id).Nodup) (look : Nat → Nat) (ind : Option Int) (n : Nat)
    (other : Str → Obj → Py Cell) : ∃ y rows, writeRead look ind (corpus xs) = .ok y ∧
      exportCorpus (evalDefault (n + 1) other) defaultConf y = .ok rows ∧ RowsOf o wid k rs xs rows := by
  obtain ⟨y, h1, h2, -⟩ := C93_partial o k ho rs hr xs h hd look ind
  have hf := C92_igts o k rs xs h
  have hlen : y.kids.length = xs.length := (Vld.same_inv h2).2.2.2.1
  have hat := (Vld.same_inv h2).2.2.2.2
  have cell : ∀ (j : Nat) x g, xs[j]? = some x → y.kids[j]? = some g → ∃ r ∈ rs, ∃ key c, Dict.get? r.context k = some (some key) ∧ IsIgt o key r x ∧
      defaultInput (n + 1) g = .ok c ∧ CellOf o wid r c := by
    intro j x g hx hg
    have hs : SameData x g := (hat j g x hg hx).symm
    have hm := List.mem_of_getElem? hx
    obtain ⟨r, hr', key, hk, hi⟩ := fromRecords_mem hf hm
    obtain ⟨c, hc, hcell⟩ := C174_partial o wid hw n key r x hi
    have hwf : x.WF := (igts_fine ho rs xs hr h x hm).2.1
    have hwf' : g.WF := Ord.same_wf x g hs hwf
    have hcls : x.cls = g.cls := by cases hs; assumption
    have he := Tsdb.C163_equal (n + 1) x g hwf hwf' hcls ((C10_eq_is_same_data x g hwf hwf' hcls).2 hs)
    rw [hc] at he
    cases hg' : defaultInput (n + 1) g with
    | error e => rw [hg'] at he; exact he.elim
    | ok c' =>
      rw [hg'] at he
      exact ⟨r, hr', key, c', hk, hi, rfl, cellOf_same hcell he⟩
  have other_at : ∀ (j : Nat) g, y.kids[j]? = some g → ∃ x, xs[j]? = some x := by
    intro j g hg
    have hj := (List.getElem?_eq_some_iff.1 hg).1
    rw [hlen] at hj
    exact ⟨_, List.getElem?_eq_getElem hj⟩
  obtain ⟨rows, hrows⟩ := exportFrom_ok (n + 1) other y.kids 0 fun g hg => by
    obtain ⟨j, hj⟩ := List.mem_iff_getElem?.1 hg
    obtain ⟨x, hx⟩ := other_at j g hj
    obtain ⟨_, _, _, c, _, _, hc, _⟩ := cell j x g hx hj
    exact ⟨c, hc⟩
  have hrows' : exportCorpus (evalDefault (n + 1) other) defaultConf y = .ok rows := hrows
  refine ⟨y, rows, h1, hrows', ?_⟩
  obtain ⟨g1, g2⟩ := Tsdb.C163_partial (n + 1) other y rows hrows'
  refine ⟨by rw [g1, hlen], fun j x row hx hrow => ?_⟩
  have hj := (List.getElem?_eq_some_iff.1 hx).1
  rw [← hlen] at hj
  have hg := List.getElem?_eq_getElem hj
  obtain ⟨h3, c, h4, h5, -⟩ := g2 j _ row hg hrow
  obtain ⟨r, hr', key, c', hk, hi, hc, hcell⟩ := cell j x _ hx hg
  rw [(Tsdb.C163_cell _ _ _).2 h4] at hc
  cases hc
  exact ⟨h3, r, hr', key, c, hk, hi, h5, hcell⟩

end

section
attribute [local instance] asciiUni asciiXml Tbx.asciiLex

theorem defaults_words : WordOpts defaults (lit! "w") := by
  have key : ∀ {β : Type} (d : Dict Str β) (k : Str) (v : β), Dict.get? d k = some v → (k, v) ∈ d := fun d k v h => Dict.get?_mem h
  refine ⟨by decide +kernel, fun tid h => ?_, fun mkr tid h h2 => ?_, fun tid pid h => ?_⟩
  · have := key _ _ _ h
    simp only [defaults, List.mem_cons, Prod.mk.injEq, List.not_mem_nil, or_false] at this
    rcases this with h | h | h | h | h | h
    · exact absurd h.2 (by decide)
    · exact h.1
    all_goals exact absurd h.2 (by decide)
  · have h1 := key _ _ _ h
    simp only [defaults, List.mem_cons, Prod.mk.injEq, List.not_mem_nil, or_false] at h1
    rcases h1 with h | h | h | h | h <;> (rw [h.2] at h2; exact absurd h2 (by decide +kernel))
  · cases h; rfl

/-- the hypotheses are met, by default and without phrases; an imported record with two words -/
example : WordOpts defaults (lit! "w") ∧ (∃ xs, toolboxIgts defaults (lit! "\\ref") [full] = .ok xs ∧ xs.length = 1) ∧
    FirstWords defaults (lit! "w") full.fields [lit! "inu", lit! "wan"] :=
  ⟨defaults_words, ⟨_, rfl, rfl⟩, [], lit! "\\t", _, _, rfl, by decide +kernel, by intro f hf; (cases hf), rfl⟩

/-- the hypotheses of `C174_file` are met -/
example : WordOpts defaults (lit! "w") ∧ OptsOK defaults ∧ RecordOK defaults (lit! "\\ref") (oneWord (lit! "7") (lit! "inu")) :=
  ⟨defaults_words, defaults_ok, oneWord_ok⟩

end
end Xigt.Tbx
