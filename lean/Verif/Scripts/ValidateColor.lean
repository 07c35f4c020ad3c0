import Verif.Scripts.ValidatePrint
import Verif.Import.NumLemmas
/-
C99: what a reader of the validator's output sees.  A terminal is a machine that reads characters and keeps a style; with
colours the characters seen are those printed without colours, in the style of the line, and nothing of the style is left
afterwards.  From a heading without colours the depth, the index and the ID can be read off.
-/
set_option linter.unusedSectionVars false

namespace Xigt.Vld

/-! ### Terminals -/

/-- how a terminal shows characters -/
structure Style where
  bold : Bool := false
  /-- the digit of the colour of ISO 6429: 0 black, 1 red, 2 green, 3 yellow, 4 blue, 5 magenta, 6 cyan, 7 white -/
  color : Option Char := none
  deriving DecidableEq

/-- neither bold nor coloured -/
def Style.plain : Style := {}

/-- the character that begins a sequence (`\033`, xigt_validate.py:349-351) -/
def ESC : Char := '\x1b'

/-- select graphic rendition: `0`, `1` and `3n` only -/
def sgr (st : Style) : Str → Option Style
  | ['0'] => some .plain
  | ['1'] => some { st with bold := true }
  | ['3', d] => some { st with color := some d }
  | _ => none

/-- inside a sequence the characters up to `m` are collected; outside every character is shown in the style -/
def terminal : Style → Option Str → Str → List (Char × Style) × Style
  | st, _, [] => ([], st)
  | st, none, c :: r =>
    if c = ESC then terminal st (some []) r
    else ((c, st) :: (terminal st none r).1, (terminal st none r).2)
  | st, some a, c :: r =>
    if c = '[' ∧ a = [] then terminal st (some []) r
    else if c = 'm' then terminal ((sgr st a).getD st) none r
    else terminal st (some (a ++ [c])) r

/-- what is seen of a text on a terminal in the initial state, and the style at the end -/
def shown (s : Str) : List (Char × Style) × Style := terminal .plain none s

theorem terminal_text (st : Style) : ∀ (s r : Str), ESC ∉ s →
    terminal st none (s ++ r) = (s.map (·, st) ++ (terminal st none r).1, (terminal st none r).2)
  | [], r, _ => by simp
  | c :: s, r, h => by
    have hc : c ≠ ESC := fun e => h (by simp [e])
    rw [List.cons_append, terminal, if_neg hc, terminal_text st s r (fun h' => h (List.mem_cons_of_mem _ h'))]
    simp

theorem terminal_reset (st : Style) (r : Str) : terminal st none (RESET_SEQ ++ r) = terminal .plain none r := rfl
theorem terminal_bold (st : Style) (r : Str) : terminal st none (BOLD_SEQ ++ r) = terminal { st with bold := true } none r := rfl

/-- the styles of messages: errors are red, warnings yellow, hints white -/
def levelStyle (level : Nat) : Option Style :=
  if level = 40 then some { color := some '1' } else if level = 30 then some { color := some '3' }
  else if level = 20 then some { color := some '7' } else none

theorem colorOf_style {level : Nat} {c : Str} (h : colorOf level = .ok c) :
    ∃ st, levelStyle level = some st ∧ ∀ r, terminal .plain none (c ++ r) = terminal st none r := by
  rw [colorOf] at h
  by_cases h1 : level = INFO
  · rw [if_pos h1] at h; cases h; subst level; exact ⟨_, rfl, fun _ => rfl⟩
  by_cases h2 : level = WARNING
  · rw [if_neg h1, if_pos h2] at h; cases h; subst level; exact ⟨_, rfl, fun _ => rfl⟩
  by_cases h3 : level = ERROR
  · rw [if_neg h1, if_neg h2, if_pos h3] at h; cases h; subst level; exact ⟨_, rfl, fun _ => rfl⟩
  · rw [if_neg h1, if_neg h2, if_neg h3] at h; cases h

theorem natStr_ascii (n : Nat) : ∀ c ∈ natStr n, c ≠ ESC ∧ c ≠ ' ' := by
  intro c hc
  have h := @natStr_digits asciiUni n c hc
  constructor
  · rintro rfl; exact absurd h (by decide)
  · rintro rfl; exact absurd h (by decide)

theorem esc_id {id : Option Str} (h : ∀ i, id = some i → ESC ∉ i) :
    ESC ∉ (if truthy id then lit! "(id: \"" ++ id.getD [] ++ lit! "\")" else [] : Str) := by
  split
  · cases id with
    | none => decide
    | some i =>
      have := h i rfl
      simp only [Option.getD_some, List.mem_append, not_or]
      exact ⟨⟨by decide, this⟩, by decide⟩
  · simp

theorem datalevels_get {n : Nat} {l : Str} (h : datalevels[n]? = some l) : ESC ∉ l ∧ ' ' ∉ l ∧ l ≠ [] := by
  have : ∀ l ∈ datalevels, ESC ∉ l ∧ ' ' ∉ l ∧ l ≠ [] := by decide
  exact this l (List.mem_of_getElem? h)

/-- **C99** a heading with colours: the characters of the heading without colours, all bold, and nothing after it is. -/
theorem C99_heading (depth index : Nat) (id : Option Str) (t : Str) (hi : ∀ i, id = some i → ESC ∉ i)
    (h : headingText true depth index id = .ok t) :
    ∃ s, headingText false depth index id = .ok s ∧ shown t = (s.map (·, { bold := true }), .plain) := by
  rw [headingText] at h ⊢
  cases hl : datalevels[depth]? with
  | none => rw [hl] at h; cases h
  | some l =>
    rw [hl] at h
    cases h
    refine ⟨_, rfl, ?_⟩
    simp only [↓reduceIte, shown]
    have he : ∀ a b c d e f : Str, (BOLD_SEQ ++ a ++ b ++ ' ' :: c ++ ' ' :: d ++ RESET_SEQ : Str) = BOLD_SEQ ++ ((a ++ b ++ ' ' :: c ++ ' ' :: d) ++ (RESET_SEQ ++ [])) := by
      intro a b c d e f; simp
    rw [he _ _ _ _ [] [], terminal_bold, terminal_text]
    · rw [terminal_reset]
      simp [terminal, Style.plain]
    · have := (datalevels_get hl).1
      have h2 : ESC ∉ natStr index := fun hh => (natStr_ascii _ _ hh).1 rfl
      have h3 := esc_id hi
      have h4 : ESC ∉ List.replicate depth ' ' := fun hh => absurd (List.eq_of_mem_replicate hh) (by decide)
      have h5 : ESC ≠ ' ' := by decide
      simp only [List.mem_append, List.mem_cons, not_or]
      exact ⟨⟨⟨h4, this⟩, h5, h2⟩, h5, h3⟩

/-- **C99** a message with colours: the characters of the message without colours, all in the colour of its level, and
nothing after it is. -/
theorem C99_message (depth level : Nat) (msg t : Str) (hm : ESC ∉ msg) (h : messageText true depth level msg = .ok t) :
    ∃ s st, messageText false depth level msg = .ok s ∧ levelStyle level = some st ∧ shown t = (s.map (·, st), .plain) := by
  simp only [messageText, bind, Except.bind] at h ⊢
  cases hc : colorOf level with
  | error e => rw [hc] at h; cases h
  | ok c =>
    rw [hc] at h
    cases h
    obtain ⟨st, h1, h2⟩ := colorOf_style hc
    refine ⟨_, st, rfl, h1, ?_⟩
    simp only [↓reduceIte, shown]
    have he : ∀ a b d : Str, (c ++ a ++ b ++ d ++ RESET_SEQ : Str) = c ++ ((a ++ b ++ d) ++ (RESET_SEQ ++ [])) := by
      intro a b d; simp
    rw [he, h2, terminal_text]
    · rw [terminal_reset]
      simp [terminal, Style.plain]
    · have h4 : ESC ∉ List.replicate depth ' ' := fun hh => absurd (List.eq_of_mem_replicate hh) (by decide)
      simp only [List.mem_append, not_or]
      exact ⟨⟨h4, by decide⟩, hm⟩

theorem cut {p : Char} : ∀ {a a' b b' : Str}, p ∉ a → p ∉ a' → a ++ p :: b = a' ++ p :: b' → a = a' ∧ b = b'
  | [], [], _, _, _, _, h => ⟨rfl, by simpa using h⟩
  | [], x :: _, _, _, _, h', h => by
    simp only [List.nil_append, List.cons_append, List.cons.injEq] at h
    exact absurd (by simp [h.1]) h'
  | x :: _, [], _, _, h', _, h => by
    simp only [List.nil_append, List.cons_append, List.cons.injEq] at h
    exact absurd (by simp [h.1]) h'
  | x :: a, y :: a', _, _, h1, h2, h => by
    simp only [List.cons_append, List.cons.injEq] at h
    have := cut (fun e => h1 (List.mem_cons_of_mem _ e)) (fun e => h2 (List.mem_cons_of_mem _ e)) h.2
    exact ⟨by rw [h.1, this.1], this.2⟩

theorem cut_spaces : ∀ {n m : Nat} {a b : Str}, a.head? ≠ some ' ' → b.head? ≠ some ' ' →
    List.replicate n ' ' ++ a = List.replicate m ' ' ++ b → n = m ∧ a = b
  | 0, 0, _, _, _, _, h => ⟨rfl, by simpa using h⟩
  | 0, m + 1, _, _, ha, _, h => by
    simp only [List.replicate_zero, List.nil_append, List.replicate_succ, List.cons_append] at h
    exact absurd (by rw [h]; rfl) ha
  | n + 1, 0, _, _, _, hb, h => by
    simp only [List.replicate_zero, List.nil_append, List.replicate_succ, List.cons_append] at h
    exact absurd (by rw [← h]; rfl) hb
  | n + 1, m + 1, _, _, ha, hb, h => by
    simp only [List.replicate_succ, List.cons_append, List.cons.injEq, true_and] at h
    have := cut_spaces ha hb h
    exact ⟨by rw [this.1], this.2⟩

theorem head_ne {l r : Str} (h : ' ' ∉ l ∧ l ≠ []) : (l ++ r).head? ≠ some ' ' := by
  cases l with
  | nil => exact absurd rfl h.2
  | cons c l => intro e; simp only [List.cons_append, List.head?_cons, Option.some.injEq] at e; exact h.1 (by simp [e])

/-- **C99** two headings are the same text only if they are for the same depth, index and ID (an empty ID is as none). -/
theorem C99_reads (d d' i i' : Nat) (id id' : Option Str) (t : Str) (h : headingText false d i id = .ok t)
    (h' : headingText false d' i' id' = .ok t) :
    d = d' ∧ i = i' ∧ id.getD [] = id'.getD [] := by
  rw [headingText] at h h'
  cases hl : datalevels[d]? with
  | none => rw [hl] at h; cases h
  | some l =>
  cases hl' : datalevels[d']? with
  | none => rw [hl'] at h'; cases h'
  | some l' =>
  rw [hl] at h
  rw [hl'] at h'
  simp only [Bool.false_eq_true, ↓reduceIte, List.nil_append, List.append_nil, Except.ok.injEq] at h h'
  rw [← h'] at h
  simp only [List.append_assoc, List.cons_append] at h
  obtain ⟨-, e1, e2⟩ := datalevels_get hl
  obtain ⟨-, e3, e4⟩ := datalevels_get hl'
  obtain ⟨h1, h2⟩ := cut_spaces (head_ne ⟨e1, e2⟩) (head_ne ⟨e3, e4⟩) h
  obtain ⟨-, h2⟩ := cut e1 e3 h2
  obtain ⟨h3, h2⟩ := cut (fun hh => (natStr_ascii _ _ hh).2 rfl) (fun hh => (natStr_ascii _ _ hh).2 rfl) h2
  refine ⟨h1, @natStr_inj asciiUni _ _ h3, ?_⟩
  have ht : ∀ x : Option Str, truthy x = true ∨ x.getD [] = [] := by
    intro x; rcases x with _ | _ | ⟨c, s⟩ <;> simp [truthy]
  split at h2 <;> split at h2 <;> rename_i a b
  · simpa using h2
  · simp at h2
  · simp at h2
  · rw [(ht id).resolve_left a, (ht id').resolve_left b]

/-- the second IGT with errors, with colours and without -/
example : headingText true 1 2 (some (lit! "i2")) = .ok (lit! "\x1b[1m igt 2 (id: \"i2\")\x1b[0m") ∧
    headingText false 1 2 (some (lit! "i2")) = .ok (lit! " igt 2 (id: \"i2\")") ∧
    messageText true 1 40 (lit! "x") = .ok (lit! "\x1b[31m  * x\x1b[0m") := ⟨rfl, rfl, rfl⟩

end Xigt.Vld
