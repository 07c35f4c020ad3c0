import Verif.Export.LatexModel
import Verif.Container.Model
/-
C59: escaping is character-wise and unambiguous; C77: what TeX prints.
-/
set_option linter.unusedSectionVars false

namespace Xigt.Ltx

/-! ### Specification -/

/-- the characters with a meaning for TeX, and how each is written -/
def Written (c : Char) (w : Str) : Prop :=
  (c = '\\' ∧ w = lit! "\\textbackslash") ∨ (c = '~' ∧ w = lit! "\\textasciitilde") ∨
  (c = '^' ∧ w = lit! "\\textasciicircum") ∨ (c ∈ (lit! "&%$#_{}") ∧ w = ['\\', c]) ∨
  (c ∉ (lit! "\\&%$#_{}~^") ∧ w = [c])

/-- the name of a control word that prints a character -/
def ctrl (w : Str) : Option Char :=
  if w = lit! "textbackslash" then some '\\'
  else if w = lit! "textasciitilde" then some '~'
  else if w = lit! "textasciicircum" then some '^'
  else none

/-- What TeX prints for a text: after a backslash, the longest run of letters is a control word, after
which spaces are skipped; any other character is a control symbol.  Unknown control sequences and
characters with a special meaning are errors (`none`).  (`fuel` must not be less than the length.) -/
def tex : Nat → Str → Option Str
  | 0, [] => some []
  | 0, _ :: _ => none
  | _ + 1, [] => some []
  | n + 1, c :: s =>
    if c = '\\' then
      match s with
      | [] => none
      | d :: r =>
        if isLetter d then
          match ctrl ((d :: r).takeWhile isLetter) with
          | some x => (tex n (((d :: r).dropWhile isLetter).dropWhile (· == ' '))).map (x :: ·)
          | none => none
        else if d ∈ (lit! "&%$#_{}") then (tex n r).map (d :: ·)
        else none
    else if c ∈ (lit! "&%$#_{}~^") then none
    else (tex n s).map (c :: ·)

/-- what TeX prints -/
def prints (s : Str) : Option Str := tex s.length s

/-- Strings in which the characters written as control words are not followed by a letter or space. -/
def Clear : Str → Prop
  | [] => True
  | c :: s => (c ∈ (lit! "\\~^") → ∀ d, s.head? = some d → isLetter d = false ∧ d ≠ ' ') ∧ Clear s

/-! ### C59 -/

/-- how a character is written -/
def esc1 (c : Char) : Str :=
  if c = '\\' then lit! "\\textbackslash"
  else if c = '~' then lit! "\\textasciitilde"
  else if c = '^' then lit! "\\textasciicircum"
  else if c ∈ (lit! "&%$#_{}") then ['\\', c] else [c]

theorem written_esc1 (c : Char) : Written c (esc1 c) := by
  unfold Written esc1
  by_cases h1 : c = '\\'
  · simp [h1]
  by_cases h2 : c = '~'
  · simp [h2]
  by_cases h3 : c = '^'
  · simp [h3]
  by_cases h4 : c ∈ (lit! "&%$#_{}")
  · simp only [h1, h2, h3, h4, if_true, if_false]
    simp
  · simp only [h1, h2, h3, h4, if_false]
    simp only [List.mem_cons, List.not_mem_nil, or_false, not_or] at h4
    simp only [false_and, false_or, and_true, List.mem_cons, List.not_mem_nil, or_false, not_or]
    exact ⟨h1, h4.1, h4.2.1, h4.2.2.1, h4.2.2.2.1, h4.2.2.2.2.1, h4.2.2.2.2.2.1, h4.2.2.2.2.2.2, h2, h3⟩

theorem written_unique {c : Char} {w : Str} (h : Written c w) : w = esc1 c := by
  rcases h with ⟨rfl, rfl⟩ | ⟨rfl, rfl⟩ | ⟨rfl, rfl⟩ | ⟨h, rfl⟩ | ⟨h, rfl⟩
  · rfl
  · rfl
  · rfl
  · unfold esc1
    rw [if_neg, if_neg, if_neg, if_pos h]
    all_goals (rintro rfl; revert h; decide)
  · unfold esc1
    have hc : ∀ x, c = x → x ∉ (lit! "\\&%$#_{}~^") := by rintro x rfl; exact h
    rw [if_neg (fun e => hc _ e (by decide)), if_neg (fun e => hc _ e (by decide)), if_neg (fun e => hc _ e (by decide)), if_neg]
    simp only [List.mem_cons, List.not_mem_nil, or_false, not_or] at h ⊢
    exact ⟨h.2.1, h.2.2.1, h.2.2.2.1, h.2.2.2.2.1, h.2.2.2.2.2.1, h.2.2.2.2.2.2.1, h.2.2.2.2.2.2.2.1⟩

theorem replace_append (c : Char) (r a b : Str) : replace c r (a ++ b) = replace c r a ++ replace c r b := by
  simp [replace]

theorem foldl_append (m : List (Char × Str)) : ∀ a b : Str,
    m.foldl (fun s p => replace p.1 p.2 s) (a ++ b) =
      m.foldl (fun s p => replace p.1 p.2 s) a ++ m.foldl (fun s p => replace p.1 p.2 s) b := by
  induction m with
  | nil => intro a b; rfl
  | cons p m ih => intro a b; simp only [List.foldl_cons, replace_append]; exact ih _ _

theorem escape_append (a b : Str) : escape (a ++ b) = escape a ++ escape b := foldl_append charmap a b

theorem foldl_other (m : List (Char × Str)) (c : Char) (h : ∀ p ∈ m, p.1 ≠ c) :
    m.foldl (fun s p => replace p.1 p.2 s) [c] = [c] := by
  induction m with
  | nil => rfl
  | cons p m ih =>
    have : replace p.1 p.2 [c] = [c] := by simp [replace, Ne.symm (h p (by simp))]
    rw [List.foldl_cons, this]
    exact ih (fun q hq => h q (by simp [hq]))

theorem escape_one (c : Char) : escape [c] = esc1 c := by
  by_cases h : c ∈ (lit! "\\&%$#_{}~^")
  · simp only [List.mem_cons, List.not_mem_nil, or_false] at h
    rcases h with rfl | rfl | rfl | rfl | rfl | rfl | rfl | rfl | rfl | rfl <;> decide
  · have hw : Written c [c] := .inr (.inr (.inr (.inr ⟨h, rfl⟩)))
    rw [← written_unique hw]
    apply foldl_other
    intro p hp e
    apply h
    rw [← e]
    have : ∀ p ∈ charmap, p.1 ∈ (lit! "\\&%$#_{}~^") := by decide
    exact this p hp

theorem escape_flatMap (s : Str) : escape s = s.flatMap esc1 := by
  induction s with
  | nil => rfl
  | cons c s ih =>
    have : c :: s = [c] ++ s := rfl
    rw [this, escape_append, escape_one, ih]; rfl

/-- C59: every character is written by itself, whatever stands around it, and nothing is escaped twice. -/
theorem C59_charwise (s : Str) : ∃ ws : List Str, ws.length = s.length ∧ escape s = ws.flatten ∧
    ∀ (n : Nat) (c : Char) (w : Str), s[n]? = some c → ws[n]? = some w → Written c w := by
  refine ⟨s.map esc1, by simp, by rw [escape_flatMap, List.flatMap_def], ?_⟩
  intro n c w hc hw
  rw [List.getElem?_map, hc] at hw
  cases hw
  exact written_esc1 c

/-- the way of writing a character is no beginning of that of another -/
theorem esc1_prefix {c d : Char} {a b : Str} (h : esc1 c ++ a = esc1 d ++ b) : c = d ∧ a = b := by
  have key : ∀ c, (∃ x ∈ (lit! "\\&%$#_{}~^"), c = x) ∨ (c ∉ (lit! "\\&%$#_{}~^") ∧ esc1 c = [c]) := by
    intro c
    by_cases hc : c ∈ (lit! "\\&%$#_{}~^")
    · exact .inl ⟨c, hc, rfl⟩
    · exact .inr ⟨hc, (written_unique (.inr (.inr (.inr (.inr ⟨hc, rfl⟩))))).symm⟩
  have start : ∀ x ∈ (lit! "\\&%$#_{}~^"), (esc1 x).head? = some '\\' := by decide
  have pre : ∀ x ∈ (lit! "\\&%$#_{}~^"), ∀ y ∈ (lit! "\\&%$#_{}~^"), x ≠ y →
      ∃ n : Nat, n < (esc1 x).length ∧ n < (esc1 y).length ∧ (esc1 x)[n]? ≠ (esc1 y)[n]? := by decide
  rcases key c with ⟨x, hx, rfl⟩ | ⟨hc, ec⟩ <;> rcases key d with ⟨y, hy, rfl⟩ | ⟨hd, ed⟩
  · by_cases hxy : c = d
    · subst hxy
      exact ⟨rfl, List.append_cancel_left h⟩
    · obtain ⟨n, h1, h2, h3⟩ := pre c hx d hy hxy
      exfalso
      apply h3
      have := congrArg (·[n]?) h
      rw [List.getElem?_append_left h1, List.getElem?_append_left h2] at this
      exact this
  · exfalso
    rw [ed] at h
    have h1 := congrArg List.head? h
    have h2 := start c hx
    cases he : esc1 c with
    | nil => rw [he] at h2; cases h2
    | cons z zs =>
      rw [he] at h1 h2
      simp only [List.cons_append, List.head?_cons, Option.some.injEq] at h1 h2
      apply hd
      rw [← h1, h2]; decide
  · exfalso
    rw [ec] at h
    have h1 := congrArg List.head? h
    have h2 := start d hy
    cases he : esc1 d with
    | nil => rw [he] at h2; cases h2
    | cons z zs =>
      rw [he] at h1 h2
      simp only [List.cons_append, List.head?_cons, Option.some.injEq] at h1 h2
      apply hc
      rw [h1, h2]; decide
  · rw [ec, ed] at h
    injection h with h1 h2
    exact ⟨h1, h2⟩

theorem esc1_ne_nil (c : Char) : esc1 c ≠ [] := by
  unfold esc1
  repeat' split
  all_goals simp

/-- C59: different strings have different escapes. -/
theorem C59_injective : ∀ (s t : Str), escape s = escape t → s = t := by
  intro s
  induction s with
  | nil =>
    intro t h
    cases t with
    | nil => rfl
    | cons d t =>
      rw [escape_flatMap, escape_flatMap, List.flatMap_nil, List.flatMap_cons] at h
      exact absurd (List.append_eq_nil_iff.1 h.symm).1 (esc1_ne_nil d)
  | cons c s ih =>
    intro t h
    cases t with
    | nil =>
      rw [escape_flatMap, escape_flatMap, List.flatMap_nil, List.flatMap_cons] at h
      exact absurd (List.append_eq_nil_iff.1 h).1 (esc1_ne_nil c)
    | cons d t =>
      rw [escape_flatMap, escape_flatMap, List.flatMap_cons, List.flatMap_cons] at h
      obtain ⟨rfl, h2⟩ := esc1_prefix h
      rw [← escape_flatMap, ← escape_flatMap] at h2
      rw [ih t h2]

example : escape (lit! "a_b\\~") = lit! "a\\_b\\textbackslash\\textasciitilde" := by decide

/-! ### C77 -/

theorem takeWhile_letters {w r : Str} (hw : ∀ c ∈ w, isLetter c = true) (hr : ∀ d, r.head? = some d → isLetter d = false) :
    (w ++ r).takeWhile isLetter = w ∧ (w ++ r).dropWhile isLetter = r := by
  induction w with
  | nil =>
    cases r with
    | nil => simp
    | cons d r => simp [hr d rfl]
  | cons c w ih =>
    have := ih (fun x hx => hw x (by simp [hx]))
    simp [hw c (by simp), this]

theorem head_escape {s : Str} {d : Char} (h : (escape s).head? = some d) :
    ∃ c, s.head? = some c ∧ (d = '\\' ∨ d = c) := by
  cases s with
  | nil => cases h
  | cons c s =>
    refine ⟨c, rfl, ?_⟩
    rw [escape_flatMap, List.flatMap_cons] at h
    unfold esc1 at h
    split at h
    · simp at h; exact .inl h.symm
    split at h
    · simp at h; exact .inl h.symm
    split at h
    · simp at h; exact .inl h.symm
    split at h
    · simp at h; exact .inl h.symm
    · simp at h; exact .inr h.symm

theorem drop_spaces {r : Str} (hr : ∀ d, r.head? = some d → d ≠ ' ') : r.dropWhile (· == ' ') = r := by
  cases r with
  | nil => rfl
  | cons d r => simp [hr d rfl]

theorem tex_escape : ∀ (s : Str) (n : Nat), (escape s).length ≤ n → Clear s → tex n (escape s) = some s := by
  intro s
  induction s with
  | nil =>
    intro n _ _
    cases n <;> rfl
  | cons c s ih =>
    intro n hn hc
    obtain ⟨h1, h2⟩ := hc
    have he : escape (c :: s) = esc1 c ++ escape s := by
      rw [escape_flatMap, List.flatMap_cons, ← escape_flatMap]
    rw [he] at hn ⊢
    have hpos : 0 < (esc1 c).length := List.length_pos_iff.2 (esc1_ne_nil c)
    rw [List.length_append] at hn
    obtain ⟨n, rfl⟩ : ∃ m, n = m + 1 := ⟨n - 1, by omega⟩
    have ihn := ih n (by omega) h2
    -- control words
    have word : ∀ (w : Str) (x : Char), esc1 c = '\\' :: w → w ≠ [] → (∀ d ∈ w, isLetter d = true) → ctrl w = some x → x = c →
        c ∈ (lit! "\\~^") → tex (n + 1) (esc1 c ++ escape s) = some (c :: s) := by
      intro w x e1 e2 e3 e4 e5 e6
      have hhead : ∀ d, (escape s).head? = some d → isLetter d = false ∧ d ≠ ' ' := by
        intro d hd
        obtain ⟨y, hy, hdy⟩ := head_escape hd
        rcases hdy with rfl | rfl
        · exact ⟨by decide, by decide⟩
        · exact h1 e6 d hy
      obtain ⟨w0, w', rfl⟩ := List.exists_cons_of_ne_nil e2
      obtain ⟨t1, t2⟩ := takeWhile_letters e3 (fun d hd => (hhead d hd).1)
      rw [e1]
      simp only [List.cons_append, tex, if_true, e3 w0 (by simp)]
      simp only [List.cons_append] at t1 t2
      rw [t1, t2, e4, drop_spaces (fun d hd => (hhead d hd).2)]
      simp only [ihn, e5, Option.map_some]
    by_cases c1 : c = '\\'
    · subst c1
      exact word (lit! "textbackslash") '\\' rfl (by simp) (by decide) (by decide) rfl (by decide)
    by_cases c2 : c = '~'
    · subst c2
      exact word (lit! "textasciitilde") '~' rfl (by simp) (by decide) (by decide) rfl (by decide)
    by_cases c3 : c = '^'
    · subst c3
      exact word (lit! "textasciicircum") '^' rfl (by simp) (by decide) (by decide) rfl (by decide)
    by_cases c4 : c ∈ (lit! "&%$#_{}")
    · have hl : isLetter c = false := by
        have : ∀ x ∈ (lit! "&%$#_{}"), isLetter x = false := by decide
        exact this c c4
      have e : esc1 c = ['\\', c] := by unfold esc1; rw [if_neg c1, if_neg c2, if_neg c3, if_pos c4]
      rw [e]
      simp only [List.cons_append, List.nil_append, tex, if_true, hl, c4]
      rw [ihn]
      rfl
    · have e : esc1 c = [c] := by unfold esc1; rw [if_neg c1, if_neg c2, if_neg c3, if_neg c4]
      rw [e]
      have c5 : c ∉ (lit! "&%$#_{}~^") := by
        simp only [List.mem_cons, List.not_mem_nil, or_false, not_or] at c4 ⊢
        exact ⟨c4.1, c4.2.1, c4.2.2.1, c4.2.2.2.1, c4.2.2.2.2.1, c4.2.2.2.2.2.1, c4.2.2.2.2.2.2, c2, c3⟩
      simp only [List.cons_append, List.nil_append, tex, c1, c5, if_false]
      rw [ihn]
      rfl

/-- C77 for strings in which `\`, `~` and `^` are not followed by letters or spaces: what is printed
for the escaped string is the string.  Missing: other strings (`C77_refuted`). -/
theorem C77_partial (s : Str) (h : Clear s) : prints (escape s) = some s := tex_escape s _ (Nat.le_refl _) h

/-- C77 is false: a letter after one of these characters becomes part of the name of the control word,
which is then unknown, whatever follows. -/
theorem C77_refuted (c d : Char) (s : Str) (hc : c ∈ (lit! "\\~^")) (hd : isLetter d = true) :
    prints (escape (c :: d :: s)) = none := by
  have hd1 : d ∉ (lit! "\\&%$#_{}~^") := by
    intro h
    have : ∀ x ∈ (lit! "\\&%$#_{}~^"), isLetter x = false := by decide
    rw [this d h] at hd; cases hd
  have ed : esc1 d = [d] := (written_unique (.inr (.inr (.inr (.inr ⟨hd1, rfl⟩))))).symm
  have he : escape (c :: d :: s) = esc1 c ++ (d :: escape s) := by
    rw [escape_flatMap, List.flatMap_cons, List.flatMap_cons, ← escape_flatMap, ed, List.singleton_append]
  have key : ∀ w : Str, esc1 c = '\\' :: w → w ≠ [] → (∀ x ∈ w, isLetter x = true) →
      (∀ r : Str, ctrl (w ++ d :: r) = none) → prints (escape (c :: d :: s)) = none := by
    intro w e1 e2 e3 e4
    unfold prints
    rw [he, e1]
    obtain ⟨w0, w', rfl⟩ := List.exists_cons_of_ne_nil e2
    simp only [List.cons_append, List.length_cons, tex, if_true, e3 w0 (by simp)]
    generalize escape s = t
    have : (w0 :: (w' ++ d :: t)).takeWhile isLetter = (w0 :: w') ++ d :: t.takeWhile isLetter := by
      have : w0 :: (w' ++ d :: t) = (w0 :: w') ++ (d :: t) := rfl
      rw [this, List.takeWhile_append_of_pos e3, List.takeWhile_cons, if_pos hd]
    rw [this, e4]
  have long : ∀ (w r : Str), (w = lit! "textbackslash" ∨ w = lit! "textasciitilde" ∨ w = lit! "textasciicircum") → ctrl (w ++ d :: r) = none := by
    intro w r hw
    unfold ctrl
    rcases hw with rfl | rfl | rfl <;> simp
  simp only [List.mem_cons, List.not_mem_nil, or_false] at hc
  rcases hc with rfl | rfl | rfl
  · exact key (lit! "textbackslash") rfl (by simp) (by decide) (fun r => long _ r (.inl rfl))
  · exact key (lit! "textasciitilde") rfl (by simp) (by decide) (fun r => long _ r (.inr (.inl rfl)))
  · exact key (lit! "textasciicircum") rfl (by simp) (by decide) (fun r => long _ r (.inr (.inr rfl)))

/-- C77 is false also for spaces, which are skipped. -/
theorem C77_refuted_space : prints (escape (lit! "~ b")) = some (lit! "~b") := by decide

/-- An item without value is printed as a pair of braces (latex.py:98: `'{}'` is escaped too). -/
theorem C77_empty : prints (escape (lit! "{}")) = some (lit! "{}") := by decide

example : Clear (lit! "a_b ~1 {x}") := by
  refine ⟨?_, ?_, ?_, ?_, ?_, ?_, ?_, ?_, ?_, ?_, trivial⟩ <;> decide
example : prints (escape (lit! "a_b ~1 {x}")) = some (lit! "a_b ~1 {x}") := by decide

end Xigt.Ltx
