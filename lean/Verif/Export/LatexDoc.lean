import Verif.Export.LatexExport
import Verif.Export.LatexRows
import Verif.Xml.Indent
/-
C111: the LaTeX documents that are exported are well formed, whatever texts, IDs and alignments there are.
-/
set_option linter.unusedSectionVars false

namespace Xigt.Ltx

/-! ### Model -/

/-- latex.py:29-33 -/
def header : Str := lit! "\n\\documentclass{article}\n\\usepackage{gb4e}\n\\begin{document}\n"

/-- latex.py:35-37 -/
def footer : Str := lit! "\n\\end{document}\n"

/-- latex.py:42-46: the text of a document with blocks; `print` adds a newline -/
def docText (bs : List Str) : Str :=
  header ++ ['\n'] ++ bs.flatMap (fun b => b ++ ['\n'] ++ ['\n']) ++ (footer ++ ['\n'])

/-- latex.py:39-46, 66-70: the document for IGTs -/
def exportDoc [Uni] (cfg : Cfg) (fuel : Nat) (igts : List Obj) : Py Str := do
  let bs ← mapPy (exportIgt cfg fuel) igts
  return docText bs

/-! ### Specification

How TeX reads a text.  Characters are letters or others; `\` makes control sequences of the longest run of letters or of
one other character; `%` hides the rest of a line and its end; the end of a line is a space, but that of a line
without anything in it ends a paragraph.  (That TeX skips spaces at the beginning of lines and after control words is left out.) -/

/-- what TeX makes of a text -/
inductive Tok where
  | ctl (name : Str)
  | left
  | right
  | chr (c : Char)
  /-- the end of a line -/
  | eol
  /-- the end of a paragraph -/
  | par
  /-- a character with a special meaning -/
  | special (c : Char)
  deriving DecidableEq

/-- where in a text TeX is -/
inductive LMode where
  | text
  /-- after a backslash -/
  | esc
  /-- in a control word -/
  | word (w : Str)
  | comment
  deriving DecidableEq

/-- `fresh`: nothing but blanks in the line so far -/
structure LSt where
  mode : LMode
  fresh : Bool
  deriving DecidableEq

/-- a character that is not part of a control sequence or comment -/
def lexText (fresh : Bool) (c : Char) : LSt × List Tok :=
  if c = '\\' then (⟨.esc, false⟩, [])
  else if c = '%' then (⟨.comment, fresh⟩, [])
  else if c = '\n' ∨ c = '\r' then (⟨.text, true⟩, [if fresh then .par else .eol])
  else if c = ' ' ∨ c = '\t' then (⟨.text, fresh⟩, [.chr c])
  else if c = '{' then (⟨.text, false⟩, [.left])
  else if c = '}' then (⟨.text, false⟩, [.right])
  else if c ∈ lit! "&$#_~^" ∨ c.toNat < 32 ∨ c.toNat = 127 then (⟨.text, false⟩, [.special c])
  else (⟨.text, false⟩, [.chr c])

/-- TeX reads one character -/
def lexStep (s : LSt) (c : Char) : LSt × List Tok :=
  match s.mode with
  | .text => lexText s.fresh c
  | .esc => if isLetter c then (⟨.word [c], false⟩, []) else (⟨.text, false⟩, [.ctl [c]])
  | .word w => if isLetter c then (⟨.word (w ++ [c]), false⟩, []) else ((lexText false c).1, .ctl w :: (lexText false c).2)
  | .comment => if c = '\n' ∨ c = '\r' then (⟨.text, true⟩, []) else (s, [])

/-- TeX reads characters one after the other -/
def lexRun : LSt → Str → LSt × List Tok
  | s, [] => (s, [])
  | s, c :: cs => ((lexRun (lexStep s c).1 cs).1, (lexStep s c).2 ++ (lexRun (lexStep s c).1 cs).2)

/-- what TeX reads; `none` if the text ends in a control sequence -/
def texReads (s : Str) : Option (List Tok) :=
  match (lexRun ⟨.text, true⟩ s).1.mode with
  | .text => some (lexRun ⟨.text, true⟩ s).2
  | .comment => some (lexRun ⟨.text, true⟩ s).2
  | _ => none

/-- `\name{arg}` -/
def command (name arg : Str) : List Tok := .ctl name :: .left :: (arg.map .chr ++ [.right])

/-- Tokens that do no more than print: characters, and control sequences that stand for a character (with the letters
that follow one, see C77). -/
def Prints : Tok → Prop
  | .chr _ => True
  | .ctl w => w ∈ [['&'], ['%'], ['$'], ['#'], ['_'], ['{'], ['}']] ∨
      lit! "textbackslash" <+: w ∨ lit! "textasciitilde" <+: w ∨ lit! "textasciicircum" <+: w
  | _ => False

/-- a group with nothing but such tokens -/
def Group (g : List Tok) : Prop := ∃ ts, (∀ t ∈ ts, Prints t) ∧ g = .left :: (ts ++ [.right])

/-- groups with spaces between them -/
def InCells : Nat → List Tok → Prop
  | 0, _ => False
  | 1, ts => Group ts
  | n + 2, ts => ∃ g rest, Group g ∧ InCells (n + 1) rest ∧ ts = g ++ .chr ' ' :: rest

/-- a line of `m` groups, ended by `\\` -/
def Row (m : Nat) (ts : List Tok) : Prop := ∃ gs, InCells m gs ∧ ts = gs ++ [.ctl ['\\'], .eol]

/-- a line with a translation -/
def Trans (ts : List Tok) : Prop := ∃ us, (∀ t ∈ us, Prints t) ∧ ts = .ctl (lit! "trans") :: .chr ' ' :: (us ++ [.eol])

/-- an example of `n` rows: all have the same number of groups -/
def Example (n : Nat) (ts : List Tok) : Prop := ∃ (m : Nat) (rows trans : List (List Tok)),
  rows.length = n ∧ (∀ r ∈ rows, Row m r) ∧ (∀ r ∈ trans, Trans r) ∧
  ts = command (lit! "begin") (lit! "exe") ++ [.ctl (lit! "small"), .eol] ++
    [.ctl (lit! "ex"), .ctl (lit! "g" ++ List.replicate n 'l'), .eol] ++ rows.flatten ++ trans.flatten ++
    command (lit! "end") (lit! "exe") ++ [.eol]

/-- the beginning of a document -/
def preamble : List Tok := .par :: command (lit! "documentclass") (lit! "article") ++ [.eol] ++
  command (lit! "usepackage") (lit! "gb4e") ++ [.eol] ++ command (lit! "begin") (lit! "document") ++ [.eol, .par]

/-- its end -/
def ending : List Tok := .par :: command (lit! "end") (lit! "document") ++ [.eol, .par]

/-- text in one line: no control characters other than tabs -/
def Line (s : Str) : Prop := ∀ c ∈ s, c = '\t' ∨ (32 ≤ c.toNat ∧ c.toNat ≠ 127)

/-- what is needed of an IGT: its ID and the texts of its items are in one line -/
def InLines [Uni] (fuel : Nat) (igt : Obj) : Prop :=
  (∀ i, igt.data.id = some i → Line i) ∧
  ∀ t ∈ igt.kids, ∀ x ∈ t.kids, ∀ v, value fuel (some igt) (some t) x = .ok (some v) → Line v

/-! ### Reading -/

theorem lexRun_append (s : LSt) (a b : Str) :
    lexRun s (a ++ b) = ((lexRun (lexRun s a).1 b).1, (lexRun s a).2 ++ (lexRun (lexRun s a).1 b).2) := by
  induction a generalizing s with
  | nil => rfl
  | cons c a ih => simp only [List.cons_append, lexRun, ih, List.append_assoc]

/-- a text is read: from a state to a state, with tokens -/
def Lex (s : LSt) (a : Str) (ts : List Tok) (s' : LSt) : Prop := lexRun s a = (s', ts)

theorem Lex.append {s s' s'' : LSt} {a b : Str} {ts us : List Tok} (h : Lex s a ts s') (g : Lex s' b us s'') :
    Lex s (a ++ b) (ts ++ us) s'' := by
  unfold Lex at *
  rw [lexRun_append, h, g]

theorem Lex.nil (s : LSt) : Lex s [] [] s := rfl

/-- in the midst of a line -/
def Mid (s : LSt) : Prop := s.fresh = false ∧
  (s.mode = .text ∨ ∃ w, s.mode = .word w ∧ Prints (.ctl w) ∧ w ≠ [] ∧ ∀ c ∈ w, isLetter c = true)

/-- a control word that is still being read -/
def pending (s : LSt) : List Tok := match s.mode with
  | .word w => [.ctl w]
  | _ => []

theorem pending_prints {s : LSt} (h : Mid s) : ∀ t ∈ pending s, Prints t := by
  intro t ht
  rcases h.2 with h | ⟨w, h, hp, _⟩
  · simp [pending, h] at ht
  · simp only [pending, h, List.mem_singleton] at ht
    rw [ht]; exact hp

/-- a character that is no letter -/
theorem Mid.other {s : LSt} (h : Mid s) {c : Char} (hc : isLetter c = false) :
    lexStep s c = ((lexText false c).1, pending s ++ (lexText false c).2) := by
  obtain ⟨m, f⟩ := s
  obtain ⟨h1, h2⟩ := h
  simp only at h1 h2
  subst h1
  rcases h2 with rfl | ⟨w, rfl, _⟩
  · rfl
  · simp only [lexStep, hc, pending]
    rfl

theorem Mid.letter {s : LSt} (h : Mid s) {c : Char} (hc : isLetter c = true) (hx : lexText false c = (⟨.text, false⟩, [.chr c])) :
    ∃ s', Mid s' ∧ ∃ ts, lexStep s c = (s', ts) ∧ ∀ t ∈ ts, Prints t := by
  obtain ⟨m, f⟩ := s
  obtain ⟨h1, h2⟩ := h
  simp only at h1 h2
  subst h1
  rcases h2 with rfl | ⟨w, rfl, hp, hne, hw⟩
  · refine ⟨⟨.text, false⟩, ⟨rfl, .inl rfl⟩, [.chr c], ?_, by simp [Prints]⟩
    simp only [lexStep, hx]
  · refine ⟨⟨.word (w ++ [c]), false⟩, ⟨rfl, .inr ⟨_, rfl, ?_, by simp, ?_⟩⟩, [], ?_, by simp⟩
    · simp only [Prints] at hp ⊢
      right
      rcases hp with hp | hp | hp | hp
      · exfalso
        have : ∀ v ∈ [['&'], ['%'], ['$'], ['#'], ['_'], ['{'], ['}']], ¬ ∀ c ∈ v, isLetter c = true := by decide
        exact this w hp hw
      · exact .inl (hp.trans (List.prefix_append _ _))
      · exact .inr (.inl (hp.trans (List.prefix_append _ _)))
      · exact .inr (.inr (hp.trans (List.prefix_append _ _)))
    · intro d hd
      rcases List.mem_append.1 hd with hd | hd
      · exact hw d hd
      · rw [List.mem_singleton.1 hd]; exact hc
    · simp only [lexStep, hc, if_true]

theorem lexText_plain {c : Char} (hl : c = '\t' ∨ (32 ≤ c.toNat ∧ c.toNat ≠ 127)) (hs : c ∉ lit! "\\&%$#_{}~^") :
    lexText false c = (⟨.text, false⟩, [.chr c]) := by
  simp only [List.mem_cons, List.not_mem_nil, or_false, not_or] at hs
  obtain ⟨e1, e2, e3, e4, e5, e6, e7, e8, e9, e10⟩ := hs
  have n1 : c ≠ '\n' := by rintro rfl; revert hl; decide
  have n2 : c ≠ '\r' := by rintro rfl; revert hl; decide
  unfold lexText
  rw [if_neg e1, if_neg e3, if_neg (by simp [n1, n2])]
  split
  · rfl
  · rename_i hb
    rw [if_neg]
    simp only [List.mem_cons, List.not_mem_nil, or_false, not_or] at hb ⊢
    refine ⟨⟨e2, e4, e5, e6, e9, e10⟩, ?_, ?_⟩
    · rcases hl with rfl | hl
      · exact absurd rfl hb.2
      · omega
    · rcases hl with rfl | hl
      · decide
      · exact hl.2

theorem lex_letters (w : Str) : ∀ (v : Str), (∀ c ∈ w, isLetter c = true) → Lex ⟨.word v, false⟩ w [] ⟨.word (v ++ w), false⟩ := by
  induction w with
  | nil => intro v _; simp [Lex, lexRun]
  | cons c w ih =>
    intro v h
    have h1 : Lex ⟨.word v, false⟩ [c] [] ⟨.word (v ++ [c]), false⟩ := by
      simp [Lex, lexRun, lexStep, h c (by simp)]
    have := h1.append (ih (v ++ [c]) (fun d hd => h d (List.mem_cons_of_mem _ hd)))
    simpa using this

/-- `\name` -/
theorem lex_ctl {s : LSt} (h : Mid s) (c : Char) (w : Str) (hw : ∀ d ∈ c :: w, isLetter d = true) :
    Lex s ('\\' :: c :: w) (pending s) ⟨.word (c :: w), false⟩ := by
  have h1 : Lex s ['\\'] (pending s) ⟨.esc, false⟩ := by
    simp only [Lex, lexRun, h.other (show isLetter '\\' = false by decide)]
    simp [lexText]
  have h2 : Lex ⟨.esc, false⟩ [c] [] ⟨.word [c], false⟩ := by
    simp [Lex, lexRun, lexStep, hw c (by simp)]
  have := (h1.append h2).append (lex_letters w [c] (fun d hd => hw d (List.mem_cons_of_mem _ hd)))
  simpa using this

/-- `\c` -/
theorem lex_sym {s : LSt} (h : Mid s) (c : Char) (hc : isLetter c = false) :
    Lex s ['\\', c] (pending s ++ [.ctl [c]]) ⟨.text, false⟩ := by
  have h1 : Lex s ['\\'] (pending s) ⟨.esc, false⟩ := by
    simp only [Lex, lexRun, h.other (show isLetter '\\' = false by decide)]
    simp [lexText]
  have h2 : Lex ⟨.esc, false⟩ [c] [.ctl [c]] ⟨.text, false⟩ := by
    simp [Lex, lexRun, lexStep, hc]
  exact h1.append h2

theorem lex_esc1 {s : LSt} (h : Mid s) (c : Char) (hl : c = '\t' ∨ (32 ≤ c.toNat ∧ c.toNat ≠ 127)) :
    ∃ s' ts, Mid s' ∧ Lex s (esc1 c) ts s' ∧ ∀ t ∈ ts, Prints t := by
  have word : ∀ d w, (∀ x ∈ d :: w, isLetter x = true) → Prints (.ctl (d :: w)) → esc1 c = '\\' :: d :: w →
      ∃ s' ts, Mid s' ∧ Lex s (esc1 c) ts s' ∧ ∀ t ∈ ts, Prints t := by
    intro d w hd hp he
    rw [he]
    exact ⟨_, _, ⟨rfl, .inr ⟨_, rfl, hp, by simp, hd⟩⟩, lex_ctl h d w hd, pending_prints h⟩
  have sym : isLetter c = false → Prints (.ctl [c]) → esc1 c = ['\\', c] → ∃ s' ts, Mid s' ∧ Lex s (esc1 c) ts s' ∧ ∀ t ∈ ts, Prints t := by
    intro hc hp he
    rw [he]
    refine ⟨_, _, ⟨rfl, .inl rfl⟩, lex_sym h c hc, ?_⟩
    intro t ht
    rcases List.mem_append.1 ht with ht | ht
    · exact pending_prints h t ht
    · rw [List.mem_singleton.1 ht]; exact hp
  by_cases hs : c ∈ lit! "\\&%$#_{}~^"
  · have hs' := hs
    simp only [List.mem_cons, List.not_mem_nil, or_false] at hs'
    rcases hs' with rfl | rfl | rfl | rfl | rfl | rfl | rfl | rfl | rfl | rfl
    · exact word 't' (lit! "extbackslash") (by decide) (.inr (.inl (List.prefix_refl _))) rfl
    · exact sym (by decide) (.inl (by decide)) rfl
    · exact sym (by decide) (.inl (by decide)) rfl
    · exact sym (by decide) (.inl (by decide)) rfl
    · exact sym (by decide) (.inl (by decide)) rfl
    · exact sym (by decide) (.inl (by decide)) rfl
    · exact sym (by decide) (.inl (by decide)) rfl
    · exact sym (by decide) (.inl (by decide)) rfl
    · exact word 't' (lit! "extasciitilde") (by decide) (.inr (.inr (.inl (List.prefix_refl _)))) rfl
    · exact word 't' (lit! "extasciicircum") (by decide) (.inr (.inr (.inr (List.prefix_refl _)))) rfl
  · have he : esc1 c = [c] := (written_unique (.inr (.inr (.inr (.inr ⟨hs, rfl⟩))))).symm
    rw [he]
    have hx := lexText_plain hl hs
    cases hc : isLetter c with
    | true =>
      obtain ⟨s', hm, ts, e, hp⟩ := h.letter hc hx
      exact ⟨s', ts, hm, by simp [Lex, lexRun, e], hp⟩
    | false =>
      refine ⟨⟨.text, false⟩, pending s ++ [.chr c], ⟨rfl, .inl rfl⟩, by simp [Lex, lexRun, h.other hc, hx], ?_⟩
      intro t ht
      rcases List.mem_append.1 ht with ht | ht
      · exact pending_prints h t ht
      · rw [List.mem_singleton.1 ht]; trivial

/-- an escaped text -/
theorem lex_escape {s : LSt} (h : Mid s) (v : Str) (hl : Line v) : ∃ s' ts, Mid s' ∧ Lex s (escape v) ts s' ∧ ∀ t ∈ ts, Prints t := by
  rw [escape_flatMap]
  induction v generalizing s with
  | nil => exact ⟨s, [], h, Lex.nil s, by simp⟩
  | cons c v ih =>
    obtain ⟨s1, t1, m1, l1, p1⟩ := lex_esc1 h c (hl c (by simp))
    obtain ⟨s2, t2, m2, l2, p2⟩ := ih m1 (fun d hd => hl d (List.mem_cons_of_mem _ hd))
    refine ⟨s2, t1 ++ t2, m2, ?_, ?_⟩
    · rw [List.flatMap_cons]; exact l1.append l2
    · intro t ht
      rcases List.mem_append.1 ht with ht | ht
      · exact p1 t ht
      · exact p2 t ht

/-- escaped texts with spaces between them -/
theorem lex_join : ∀ (vs : List Str) {s : LSt}, Mid s → (∀ v ∈ vs, ∃ u, Line u ∧ v = escape u) →
    ∃ s' ts, Mid s' ∧ Lex s (join [' '] vs) ts s' ∧ ∀ t ∈ ts, Prints t := by
  intro vs
  induction vs with
  | nil => intro s h _; exact ⟨s, [], h, Lex.nil s, by simp⟩
  | cons v vs ih =>
    intro s h hv
    obtain ⟨u, hu, hue⟩ := hv v (by simp)
    obtain ⟨s1, t1, m1, l1, p1⟩ := lex_escape h u hu
    rw [← hue] at l1
    cases vs with
    | nil => exact ⟨s1, t1, m1, l1, p1⟩
    | cons w ws =>
      have hsp : Lex s1 [' '] (pending s1 ++ [.chr ' ']) ⟨.text, false⟩ := by
        simp only [Lex, lexRun, m1.other (show isLetter ' ' = false by decide)]
        simp [lexText]
      obtain ⟨s2, t2, m2, l2, p2⟩ := ih (s := ⟨.text, false⟩) ⟨rfl, .inl rfl⟩ (fun v hv' => hv v (List.mem_cons_of_mem _ hv'))
      refine ⟨s2, t1 ++ (pending s1 ++ [.chr ' ']) ++ t2, m2, ?_, ?_⟩
      · simp only [join]
        exact (l1.append hsp).append l2
      intro t ht
      simp only [List.mem_append, List.mem_singleton] at ht
      rcases ht with (ht | ht | ht) | ht
      · exact p1 t ht
      · exact pending_prints m1 t ht
      · rw [ht]; trivial
      · exact p2 t ht

/-- a cell -/
theorem lex_group {f : Bool} (vs : List Str) (hv : ∀ v ∈ vs, ∃ u, Line u ∧ v = escape u) :
    ∃ g, Group g ∧ Lex ⟨.text, f⟩ ('{' :: join [' '] vs ++ ['}']) g ⟨.text, false⟩ := by
  have h1 : Lex ⟨.text, f⟩ ['{'] [.left] ⟨.text, false⟩ := by simp [Lex, lexRun, lexStep, lexText]
  obtain ⟨s2, t2, m2, l2, p2⟩ := lex_join vs (s := ⟨.text, false⟩) ⟨rfl, .inl rfl⟩ hv
  have h3 : Lex s2 ['}'] (pending s2 ++ [.right]) ⟨.text, false⟩ := by
    simp only [Lex, lexRun, m2.other (show isLetter '}' = false by decide)]
    simp [lexText]
  refine ⟨_, ⟨t2 ++ pending s2, ?_, rfl⟩, ?_⟩
  · intro t ht
    rcases List.mem_append.1 ht with ht | ht
    · exact p2 t ht
    · exact pending_prints m2 t ht
  · have := (h1.append l2).append h3
    simpa using this

section
variable [Uni]

theorem text_line {v : Option Str} (h : ∀ u, v = some u → Line u) : ∃ u, Line u ∧ text v = escape u := by
  unfold text
  split
  · exact ⟨_, h _ rfl, rfl⟩
  · exact ⟨lit! "{}", by unfold Line; decide +kernel, rfl⟩

theorem rowTexts_lines {cfg : Cfg} (hp : cfg.Plain) {fuel : Nat} {igt tier : Obj} : ∀ {xs : List Obj} {ts : List Str},
    (∀ x ∈ xs, ∀ v, value fuel (some igt) (some tier) x = .ok (some v) → Line v) → rowTexts cfg fuel igt tier xs = .ok ts →
      ∀ t ∈ ts, ∃ u, Line u ∧ t = escape u := by
  intro xs
  induction xs with
  | nil => intro ts _ h; cases h; simp
  | cons x xs ih =>
    intro ts hl h
    simp only [rowTexts, bind, Except.bind] at h
    cases hv : value fuel (some igt) (some tier) x with
    | error e => rw [hv] at h; cases h
    | ok v =>
      rw [hv] at h
      cases hr : rowTexts cfg fuel igt tier xs with
      | error e => rw [hr] at h; cases h
      | ok us =>
        rw [hr] at h
        simp only [Except.ok.injEq] at h
        subst h
        intro t ht
        rcases List.mem_cons.1 ht with rfl | ht
        · rw [hp.1]
          exact text_line (fun u hu => hl x (by simp) u (by rw [hv, hu]))
        · exact ih (fun y hy => hl y (List.mem_cons_of_mem _ hy)) hr t ht

theorem cells_lex {cfg : Cfg} (hp : cfg.Plain) {fuel : Nat} {igt tier : Obj} {i : Nat} : ∀ {T : Trellis} {cs : List Str},
    (∀ c ∈ T, ∀ x ∈ c.getD i [], ∀ v, value fuel (some igt) (some tier) x = .ok (some v) → Line v) →
    cells cfg fuel igt tier i T = .ok cs → cs.length = T.length ∧
      (T ≠ [] → ∀ f, ∃ gs, InCells T.length gs ∧ Lex ⟨.text, f⟩ (join [' '] cs) gs ⟨.text, false⟩) := by
  intro T
  induction T with
  | nil => intro cs _ h; cases h; exact ⟨rfl, fun h => absurd rfl h⟩
  | cons c T ih =>
    intro cs hl h
    simp only [cells, cell, bind, Except.bind] at h
    cases hc : c[i]? with
    | none => rw [hc] at h; cases h
    | some row =>
      rw [hc] at h
      simp only at h
      cases hr : rowTexts cfg fuel igt tier row with
      | error e => rw [hr] at h; cases h
      | ok ts =>
        rw [hr] at h
        simp only at h
        cases hcs : cells cfg fuel igt tier i T with
        | error e => rw [hcs] at h; cases h
        | ok cs' =>
          rw [hcs] at h
          simp only [Except.ok.injEq] at h
          subst h
          obtain ⟨k1, k2⟩ := ih (fun d hd => hl d (List.mem_cons_of_mem _ hd)) hcs
          have hrow : row = c.getD i [] := by rw [List.getD_eq_getElem?_getD, hc]; rfl
          have ht := rowTexts_lines hp (by rw [hrow]; exact hl c (by simp)) hr
          refine ⟨by simp [k1], fun _ f => ?_⟩
          obtain ⟨g, hg, lg⟩ := lex_group (f := f) ts ht
          cases T with
          | nil =>
            cases cs' with
            | cons _ _ => simp at k1
            | nil => exact ⟨g, hg, lg⟩
          | cons d T =>
            cases cs' with
            | nil => simp at k1
            | cons e es =>
              obtain ⟨gs, hgs, lgs⟩ := k2 (by simp) false
              have hsp : Lex ⟨.text, false⟩ [' '] [.chr ' '] ⟨.text, false⟩ := by simp [Lex, lexRun, lexStep, lexText]
              refine ⟨g ++ .chr ' ' :: gs, ⟨g, gs, hg, hgs, rfl⟩, ?_⟩
              have := (lg.append hsp).append lgs
              simpa [join] using this

/-- everything in a column comes from the tiers -/
theorem rowLines_lex {cfg : Cfg} (hp : cfg.Plain) {fuel : Nat} {igt : Obj} {tiers : List Obj} {T : Trellis} (hT : T ≠ [])
    (hl : ∀ (i : Nat) (t : Obj), tiers[i]? = some t → ∀ c ∈ T, ∀ x ∈ c.getD i [], ∀ v, value fuel (some igt) (some t) x = .ok (some v) → Line v) :
    ∀ (n i : Nat) (rows : List Str), rowLines cfg fuel igt tiers T n i = .ok rows → rows.length = n ∧ i + n ≤ max i tiers.length ∧
      ∃ rs : List (List Tok), rs.length = n ∧ (∀ r ∈ rs, Row T.length r) ∧
        Lex ⟨.text, true⟩ (rows.flatMap fun r => r ++ ['\n']) rs.flatten ⟨.text, true⟩ := by
  intro n
  induction n with
  | zero =>
    intro i rows h
    cases h
    exact ⟨rfl, by omega, [], rfl, by simp, Lex.nil _⟩
  | succ n ih =>
    intro i rows h
    simp only [rowLines] at h
    cases ht : tiers[i]? with
    | none => rw [ht] at h; cases h
    | some t =>
      rw [ht] at h
      simp only [bind, Except.bind] at h
      cases hc : cells cfg fuel igt t i T with
      | error e => rw [hc] at h; cases h
      | ok cs =>
        rw [hc] at h
        cases hr : rowLines cfg fuel igt tiers T n (i + 1) with
        | error e => rw [hr] at h; cases h
        | ok ls =>
          rw [hr] at h
          simp only [Except.ok.injEq] at h
          subst h
          obtain ⟨k1, k2, rs, k3, k4, k5⟩ := ih (i + 1) ls hr
          obtain ⟨_, c2⟩ := cells_lex hp (hl i t ht) hc
          obtain ⟨gs, hgs, lgs⟩ := c2 hT true
          have hi : i < tiers.length := (List.getElem?_eq_some_iff.1 ht).1
          refine ⟨by simp [k1], by omega, (gs ++ [.ctl ['\\'], .eol]) :: rs, by simp [k3], ?_, ?_⟩
          · intro r hr
            rcases List.mem_cons.1 hr with rfl | hr
            · exact ⟨gs, hgs, rfl⟩
            · exact k4 r hr
          · have he : Lex ⟨.text, false⟩ (lit! "\\\\\n") [.ctl ['\\'], .eol] ⟨.text, true⟩ := rfl
            have := (lgs.append he).append k5
            rw [hp.2, List.flatMap_cons, List.flatten_cons]
            simpa using this

theorem transLines_lex {cfg : Cfg} (hp : cfg.Plain) {fuel : Nat} {igt : Obj} : ∀ {ts : List Obj} {ls : List Str},
    (∀ t ∈ ts, ∀ x ∈ t.kids, ∀ v, value fuel (some igt) (some t) x = .ok (some v) → Line v) → transLines cfg fuel igt ts = .ok ls →
    ∃ rs : List (List Tok), (∀ r ∈ rs, Trans r) ∧ Lex ⟨.text, true⟩ (ls.flatMap fun r => r ++ ['\n']) rs.flatten ⟨.text, true⟩ := by
  intro ts
  induction ts with
  | nil => intro ls _ h; cases h; exact ⟨[], by simp, Lex.nil _⟩
  | cons t ts ih =>
    intro ls hl h
    have hl' : ∀ t ∈ ts, ∀ x ∈ t.kids, ∀ v, value fuel (some igt) (some t) x = .ok (some v) → Line v := fun u hu => hl u (List.mem_cons_of_mem _ hu)
    unfold transLines at h
    split at h
    · rename_i x _ hty hk
      simp only [bind, Except.bind] at h
      cases hv : value fuel (some igt) (some t) x with
      | error e => rw [hv] at h; cases h
      | ok v =>
        rw [hv] at h
        cases hr : transLines cfg fuel igt ts with
        | error e => rw [hr] at h; cases h
        | ok us =>
          rw [hr] at h
          simp only [Except.ok.injEq] at h
          subst h
          obtain ⟨rs, k1, k2⟩ := ih hl' hr
          obtain ⟨u, hu, hue⟩ := text_line (v := v) (fun w hw => hl t (by simp) x (by rw [hk]; simp) w (by rw [hv, hw]))
          have h1 : Lex ⟨.text, true⟩ (lit! "\\trans ") [.ctl (lit! "trans"), .chr ' '] ⟨.text, false⟩ := rfl
          obtain ⟨s2, t2, m2, l2, p2⟩ := lex_escape (s := ⟨.text, false⟩) ⟨rfl, .inl rfl⟩ u hu
          have h3 : Lex s2 ['\n'] (pending s2 ++ [.eol]) ⟨.text, true⟩ := by
            simp only [Lex, lexRun, m2.other (show isLetter '\n' = false by decide)]
            simp [lexText]
          refine ⟨(.ctl (lit! "trans") :: .chr ' ' :: ((t2 ++ pending s2) ++ [.eol])) :: rs, ?_, ?_⟩
          · intro r hr
            rcases List.mem_cons.1 hr with rfl | hr
            · refine ⟨_, ?_, rfl⟩
              intro t ht
              rcases List.mem_append.1 ht with ht | ht
              · exact p2 t ht
              · exact pending_prints m2 t ht
            · exact k1 r hr
          · have := ((h1.append l2).append h3).append k2
            rw [hp.2, hue, List.flatMap_cons, List.flatten_cons]
            simpa using this
    · exact ih hl' h

theorem rowLines_length {cfg : Cfg} {fuel : Nat} {igt : Obj} {tiers : List Obj} {T : Trellis} :
    ∀ (n i : Nat) (rows : List Str), rowLines cfg fuel igt tiers T n i = .ok rows → n = 0 ∨ i + n ≤ tiers.length := by
  intro n
  induction n with
  | zero => intro _ _ _; exact .inl rfl
  | succ n ih =>
    intro i rows h
    right
    simp only [rowLines] at h
    cases ht : tiers[i]? with
    | none => rw [ht] at h; cases h
    | some t =>
      have hi : i < tiers.length := (List.getElem?_eq_some_iff.1 ht).1
      rw [ht] at h
      simp only [bind, Except.bind] at h
      split at h
      · cases h
      split at h
      · cases h
      rename_i ls hr
      rcases ih (i + 1) ls hr with rfl | h
      · omega
      · omega

theorem join_nl : ∀ (ls : List Str), ls ≠ [] → join ['\n'] ls ++ ['\n'] = ls.flatMap fun l => l ++ ['\n'] := by
  intro ls
  induction ls with
  | nil => intro h; exact absurd rfl h
  | cons l ls ih =>
    intro _
    cases ls with
    | nil => simp [join]
    | cons m ms =>
      have := ih (by simp)
      simp only [join, List.append_assoc, List.flatMap_cons] at this ⊢
      rw [this]

theorem lex_comment (s : Str) (h : Line s) (f : Bool) : Lex ⟨.comment, f⟩ (s ++ ['\n']) [] ⟨.text, true⟩ := by
  induction s with
  | nil => rfl
  | cons c s ih =>
    have hc := h c (by simp)
    have n1 : c ≠ '\n' := by rintro rfl; revert hc; decide
    have n2 : c ≠ '\r' := by rintro rfl; revert hc; decide
    have h1 : Lex ⟨.comment, f⟩ [c] [] ⟨.comment, f⟩ := by simp [Lex, lexRun, lexStep, n1, n2]
    exact h1.append (ih (fun d hd => h d (List.mem_cons_of_mem _ hd)))

/-- what is exported for an IGT: an example with a row for each tier of the wanted types, or nothing but comments -/
def Exported (cfg : Cfg) (igt : Obj) (ts : List Tok) : Prop :=
  if (igt.kids.filter (wanted cfg)).length < 2 then ts = [] else Example (igt.kids.filter (wanted cfg)).length ts

theorem lex_igt {cfg : Cfg} (hp : cfg.Plain) {fuel : Nat} {igt : Obj} (hl : InLines fuel igt) {b : Str} (h : exportIgt cfg fuel igt = .ok b) :
    ∃ ts, Exported cfg igt ts ∧ Lex ⟨.text, true⟩ (b ++ ['\n']) ts ⟨.text, true⟩ := by
  unfold exportIgt at h
  unfold Exported
  by_cases h2 : (igt.kids.filter (wanted cfg)).length < 2
  · rw [if_pos h2] at h
    simp only [if_pos h2]
    simp only [Except.ok.injEq] at h
    subst h
    refine ⟨[], rfl, ?_⟩
    have hid : Line (igt.data.id.getD (lit! "None")) := by
      cases hi : igt.data.id with
      | none => unfold Line; decide +kernel
      | some i => exact hl.1 i hi
    have h1 : Lex ⟨.text, true⟩ (lit! "%\n% cannot export IGT ") [] ⟨.comment, true⟩ := rfl
    have h3 : Lex ⟨.text, true⟩ (lit! "%\n") [] ⟨.text, true⟩ := rfl
    have := (h1.append (lex_comment _ hid true)).append h3
    simpa using this
  · rw [if_neg h2] at h
    simp only [if_neg h2]
    split at h
    · rename_i hids
      simp only [bind, Except.bind] at h
      split at h
      · cases h
      rename_i T hT
      split at h
      · cases h
      rename_i ls hls
      simp only [Except.ok.injEq] at h
      subst h
      cases T with
      | nil => cases hls
      | cons c T =>
        simp only [block, bind, Except.bind] at hls
        split at hls
        · cases hls
        rename_i rows hrows
        split at hls
        · cases hls
        rename_i trans htrans
        simp only [Except.ok.injEq] at hls
        subst hls
        obtain ⟨g1, g2⟩ := grid_any hT rfl
        have hc : c.length = (igt.kids.filter (wanted cfg)).length := by
          rcases rowLines_length _ _ _ hrows with h | h <;> omega
        have hval : ∀ t ∈ igt.kids, ∀ x ∈ t.kids, ∀ v, value fuel (some igt) (some t) x = .ok (some v) → Line v := hl.2
        obtain ⟨_, _, rs, r1, r2, r3⟩ := rowLines_lex hp (fuel := fuel) (igt := igt) (T := c :: T) (by simp) (by
          intro i t ht d hd x hx v hv
          exact hval t (List.mem_filter.1 (List.mem_of_getElem? ht)).1 x (g2 (by omega) i t ht d hd x hx) v hv) _ _ _ hrows
        obtain ⟨us, u1, u2⟩ := transLines_lex hp hval htrans
        refine ⟨_, ⟨(c :: T).length, rs, us, by rw [r1, hc], r2, u1, rfl⟩, ?_⟩
        rw [join_nl _ (by simp)]
        have h1 : Lex ⟨.text, true⟩ (lit! "\\begin{exe}\\small\n") (command (lit! "begin") (lit! "exe") ++ [.ctl (lit! "small"), .eol]) ⟨.text, true⟩ := rfl
        have h3 : Lex ⟨.text, true⟩ (lit! "\\ex\\g" ++ List.replicate (igt.kids.filter (wanted cfg)).length 'l' ++ ['\n'])
            [.ctl (lit! "ex"), .ctl (lit! "g" ++ List.replicate (igt.kids.filter (wanted cfg)).length 'l'), .eol] ⟨.text, true⟩ := by
          have a : Lex ⟨.text, true⟩ (lit! "\\ex\\g") [.ctl (lit! "ex")] ⟨.word (lit! "g"), false⟩ := rfl
          have b := lex_letters (List.replicate (igt.kids.filter (wanted cfg)).length 'l') (lit! "g") (by
            intro c hc; rw [List.eq_of_mem_replicate hc]; rfl)
          have d : ∀ w, Lex ⟨.word w, false⟩ ['\n'] [.ctl w, .eol] ⟨.text, true⟩ := fun _ => rfl
          exact (a.append b).append (d _)
        have h4 : Lex ⟨.text, true⟩ (lit! "\\end{exe}\n") (command (lit! "end") (lit! "exe") ++ [.eol]) ⟨.text, true⟩ := rfl
        have := (((h1.append h3).append r3).append u2).append h4
        simpa [List.flatMap_append] using this
    · cases h

/-- **C111** (partial: for IDs and texts in one line, and a configuration without substitutions): TeX reads an exported document as preamble,
examples and ending.  There is one example for each IGT with two or more tiers of the wanted types, with one row for each of these and
as many groups in each row, and nothing for the other IGTs.  In groups and translations nothing is read but what
prints characters: whatever the texts are, they open and close no groups or environments, begin no comments and end no paragraphs. -/
theorem C111_partial {cfg : Cfg} (hp : cfg.Plain) {fuel : Nat} {igts : List Obj} (hl : ∀ igt ∈ igts, InLines fuel igt) {s : Str}
    (h : exportDoc cfg fuel igts = .ok s) :
    ∃ blocks : List (List Tok), All2 (Exported cfg) igts blocks ∧
      texReads s = some (preamble ++ blocks.flatMap (fun b => b ++ [.par]) ++ ending) := by
  simp only [exportDoc, bind, Except.bind] at h
  split at h
  · cases h
  rename_i bs hbs
  cases h
  have key : ∀ (igts : List Obj) (bs : List Str), (∀ igt ∈ igts, InLines fuel igt) → mapPy (exportIgt cfg fuel) igts = .ok bs →
      ∃ blocks : List (List Tok), All2 (Exported cfg) igts blocks ∧
        Lex ⟨.text, true⟩ (bs.flatMap (fun b => b ++ ['\n'] ++ ['\n'])) (blocks.flatMap (fun b => b ++ [.par])) ⟨.text, true⟩ := by
    intro igts
    induction igts with
    | nil => intro bs _ h; cases h; exact ⟨[], .nil, Lex.nil _⟩
    | cons x xs ih =>
      intro bs hl h
      simp only [mapPy, bind, Except.bind] at h
      split at h
      · cases h
      rename_i b hb
      split at h
      · cases h
      rename_i bs' hbs'
      cases h
      obtain ⟨ts, t1, t2⟩ := lex_igt hp (hl x (by simp)) hb
      obtain ⟨us, u1, u2⟩ := ih bs' (fun y hy => hl y (List.mem_cons_of_mem _ hy)) hbs'
      have hnl : Lex ⟨.text, true⟩ ['\n'] [.par] ⟨.text, true⟩ := rfl
      refine ⟨ts :: us, .cons t1 u1, ?_⟩
      rw [List.flatMap_cons, List.flatMap_cons]
      exact (t2.append hnl).append u2
  obtain ⟨blocks, b1, b2⟩ := key igts bs hl hbs
  refine ⟨blocks, b1, ?_⟩
  have hh : Lex ⟨.text, true⟩ (header ++ ['\n']) preamble ⟨.text, true⟩ := by
    unfold Lex
    decide +kernel
  have hf : Lex ⟨.text, true⟩ (footer ++ ['\n']) ending ⟨.text, true⟩ := by
    unfold Lex
    decide +kernel
  have := (hh.append b2).append hf
  unfold texReads docText
  rw [this]

end

end Xigt.Ltx
