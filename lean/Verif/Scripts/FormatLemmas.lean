import Verif.Scripts.FormatModel
/-
What formatting and `SafeFormatter` do with format strings, character by character and field by field.
-/

set_option linter.unusedSectionVars false
set_option linter.unusedSimpArgs false

namespace Xigt.Fmt

/-! ### Lengths -/

theorem push_ok {α : Type} {c : Char} {p : Py (Str × α)} {q : Str × α} (h : push c p = .ok q) :
    ∃ s r, p = .ok (s, r) ∧ q = (c :: s, r) := by
  cases p with
  | error e => cases h
  | ok p => cases h; exact ⟨p.1, p.2, rfl, rfl⟩

theorem nameLoop_len : ∀ (s : Str) (b : Bool) {n c r}, nameLoop b s = .ok (n, c, r) → r.length < s.length := by
  intro s
  induction s with
  | nil => intro b n c r h; cases b <;> simp [nameLoop] at h
  | cons x s ih =>
    intro b n c r h
    cases b with
    | true =>
      simp only [nameLoop] at h
      obtain ⟨a, q, h1, h2⟩ := push_ok h
      cases h2
      have := ih _ h1
      simp only [List.length_cons]; omega
    | false =>
      simp only [nameLoop] at h
      split at h
      · cases h
      · split at h
        · cases h; simp
        · obtain ⟨a, q, h1, h2⟩ := push_ok h
          cases h2
          have := ih _ h1
          simp only [List.length_cons]; omega

theorem specLoop_len : ∀ (s : Str) (k : Nat) {n r}, specLoop k s = .ok (n, r) → r.length < s.length := by
  intro s
  induction s with
  | nil => intro b n r h; simp [specLoop] at h
  | cons x s ih =>
    intro b n r h
    simp only [specLoop] at h
    split at h
    · obtain ⟨a, q, h1, h2⟩ := push_ok h
      cases h2
      have := ih _ h1
      simp only [List.length_cons]; omega
    · split at h
      · split at h
        · cases h; simp
        · obtain ⟨a, q, h1, h2⟩ := push_ok h
          cases h2
          have := ih _ h1
          simp only [List.length_cons]; omega
      · obtain ⟨a, q, h1, h2⟩ := push_ok h
        cases h2
        have := ih _ h1
        simp only [List.length_cons]; omega

theorem parseField_len {s : Str} {f r} (h : parseField s = .ok (f, r)) : r.length < s.length := by
  simp only [parseField] at h
  split at h
  · cases h
  · rename_i n c r' hn
    have h1 := nameLoop_len _ _ hn
    split at h
    · cases h; exact h1
    · split at h
      · split at h
        · cases h
        · rename_i a b hs
          cases h
          have := specLoop_len _ _ hs
          omega
      · split at h
        · cases h
        · cases h
        · simp only [List.length_cons] at h1
          split at h
          · cases h; omega
          · split at h
            · split at h
              · cases h
              · rename_i a b hs
                cases h
                have := specLoop_len _ _ hs
                omega
            · cases h

theorem next_len {s : Str} (hs : s ≠ []) {t r} (h : next s = .ok (t, r)) : r.length < s.length := by
  have hd : (s.dropWhile notBrace).length ≤ s.length := (List.dropWhile_sublist notBrace).length_le
  simp only [next] at h
  split at h
  · cases h
    exact List.length_pos_iff.2 hs
  · cases h
  · rename_i c d r' he
    rw [he] at hd
    simp only [List.length_cons] at hd
    split at h
    · cases h; omega
    · split at h
      · cases h
      · split at h
        · cases h
        · rename_i f q hf
          cases h
          have := parseField_len hf
          simp only [List.length_cons] at this
          omega

/-! ### Fuel -/

section
variable (env : Env) (expand : Str → Py Str) (args : Dict Str Val)

theorem fmtN_fuel : ∀ (n m : Nat) (s : Str), s.length ≤ n → s.length ≤ m → fmtN env expand args n s = fmtN env expand args m s := by
  intro n
  induction n with
  | zero =>
    intro m s h1 _
    have : s = [] := List.length_eq_zero_iff.1 (by omega)
    subst this
    cases m <;> rfl
  | succ n ih =>
    intro m s h1 h2
    cases s with
    | nil => cases m <;> rfl
    | cons c s =>
      cases m with
      | zero => simp at h2
      | succ m =>
        simp only [fmtN]
        cases hx : next (c :: s) with
        | error e => rfl
        | ok p =>
          obtain ⟨t, r⟩ := p
          have hl := next_len (by simp) hx
          simp only
          cases tokText env expand args t with
          | error e => rfl
          | ok a =>
            simp only
            rw [ih m r (by omega) (by omega)]

/-- formatting, without fuel -/
def fmtS (s : Str) : Py Str := fmtN env expand args s.length s

/-- puts a text before another -/
def pre (a : Str) : Py Str → Py Str
  | .ok s => .ok (a ++ s)
  | .error e => .error e

theorem pre_nil (p : Py Str) : pre [] p = p := by cases p <;> rfl
theorem pre_append (a b : Str) (p : Py Str) : pre (a ++ b) p = pre a (pre b p) := by
  cases p <;> simp [pre]

/-- puts a text, or an exception, before another -/
def andThen (a b : Py Str) : Py Str :=
  match a with
  | .ok s => pre s b
  | .error e => .error e

theorem fmtS_nil : fmtS env expand args [] = .ok [] := rfl

theorem fmtS_step {s : Str} (hs : s ≠ []) : fmtS env expand args s =
    match next s with
    | .error e => .error e
    | .ok (t, r) => andThen (tokText env expand args t) (fmtS env expand args r) := by
  cases s with
  | nil => exact absurd rfl hs
  | cons c s =>
    rw [fmtS, List.length_cons, fmtN]
    cases hx : next (c :: s) with
    | error e => rfl
    | ok p =>
      obtain ⟨t, r⟩ := p
      have hl := next_len (by simp) hx
      simp only [List.length_cons] at hl
      simp only [andThen]
      cases tokText env expand args t with
      | error e => rfl
      | ok a =>
        simp only
        rw [fmtN_fuel env expand args s.length r.length r (by omega) (by omega), ← fmtS]
        cases fmtS env expand args r <;> rfl

/-! ### Parsing -/

theorem next_char {c : Char} (hc : notBrace c = true) {s : Str} (hs : s ≠ []) : next (c :: s) =
    match next s with
    | .error e => .error e
    | .ok (t, r) => .ok (⟨c :: t.lit, t.field⟩, r) := by
  simp only [next, List.dropWhile_cons, hc, if_true, List.takeWhile_cons]
  split
  · rfl
  · rfl
  · split
    · rfl
    · split
      · rfl
      · split
        · rename_i h; simp only [h]
        · rename_i h; simp only [h]

theorem next_one {c : Char} (hc : notBrace c = true) : next [c] = .ok (⟨[c], none⟩, []) := by
  simp [next, hc]

theorem next_double {c : Char} (hc : notBrace c = false) (s : Str) : next (c :: c :: s) = .ok (⟨[c], none⟩, s) := by
  simp [next, hc]

/-- the names of fields without indices -/
def nameChar (c : Char) : Bool := notBrace c && c != '[' && c != ':' && c != '!'

structure Field.OK (f : Field) : Prop where
  name : ∀ c ∈ f.name, nameChar c = true
  spec : ∀ c ∈ f.spec, notBrace c = true

theorem nameLoop_name : ∀ (name : Str), (∀ c ∈ name, nameChar c = true) → ∀ (c : Char) (r : Str), c = '}' ∨ c = ':' ∨ c = '!' →
    nameLoop false (name ++ c :: r) = .ok (name, c, r) := by
  intro name
  induction name with
  | nil =>
    intro _ c r hc
    rw [List.nil_append, nameLoop, if_neg (by rcases hc with h | h | h <;> subst h <;> decide), if_pos hc]
  | cons x name ih =>
    intro h c r hc
    have hx := h x (by simp)
    simp only [nameChar, notBrace, Bool.and_eq_true, bne_iff_ne, ne_eq] at hx
    obtain ⟨⟨⟨⟨h1, h2⟩, h3⟩, h4⟩, h5⟩ := hx
    rw [List.cons_append, nameLoop, if_neg h1, if_neg (by simp [h2, h4, h5]), beq_eq_false_iff_ne.2 h3,
      ih (fun c hc => h c (by simp [hc])) c r hc]
    rfl

theorem specLoop_spec : ∀ (spec : Str), (∀ c ∈ spec, notBrace c = true) → ∀ (r : Str),
    specLoop 0 (spec ++ '}' :: r) = .ok (spec, r) := by
  intro spec
  induction spec with
  | nil => intro _ r; rfl
  | cons x spec ih =>
    intro h r
    have hx := h x (by simp)
    simp only [notBrace, Bool.and_eq_true, bne_iff_ne, ne_eq] at hx
    rw [List.cons_append, specLoop, if_neg hx.1, if_neg hx.2, ih (fun c hc => h c (by simp [hc])) r]
    rfl

theorem parseField_inner {f : Field} (h : f.OK) (r : Str) : parseField (f.inner ++ '}' :: r) = .ok (f, r) := by
  obtain ⟨name, conv, spec⟩ := f
  obtain ⟨h1, h2⟩ := h
  simp only at h1 h2
  simp only [Field.inner]
  cases conv with
  | none =>
    cases spec with
    | nil =>
      rw [if_pos rfl, List.append_nil, List.append_nil, parseField, nameLoop_name name h1 '}' r (by simp)]
      simp
    | cons x spec =>
      rw [if_neg (by simp), List.append_nil, List.append_assoc, List.cons_append, parseField,
        nameLoop_name name h1 ':' _ (by simp)]
      simp only
      rw [if_neg (by decide), if_pos trivial, specLoop_spec _ h2]
  | some v =>
    cases spec with
    | nil =>
      rw [if_pos rfl, List.append_nil, List.append_assoc, parseField]
      simp only [List.cons_append, List.nil_append]
      rw [nameLoop_name name h1 '!' _ (by simp)]
      simp only
      rw [if_neg (by decide), if_neg (by decide), if_pos trivial]
    | cons x spec =>
      rw [if_neg (by simp), List.append_assoc, List.append_assoc, parseField]
      rw [show ['!', v] ++ (':' :: x :: spec ++ '}' :: r) = '!' :: v :: ':' :: ((x :: spec) ++ '}' :: r) by simp,
        nameLoop_name name h1 '!' _ (by simp)]
      simp only
      rw [if_neg (by decide), if_neg (by decide), if_neg (by decide), if_pos trivial, specLoop_spec _ h2]

theorem inner_head {f : Field} (h : f.OK) (r : Str) : ∃ d r', f.inner ++ '}' :: r = d :: r' ∧ d ≠ '{' := by
  obtain ⟨name, conv, spec⟩ := f
  obtain ⟨h1, h2⟩ := h
  simp only [Field.inner]
  cases name with
  | cons c name =>
    refine ⟨c, _, rfl, ?_⟩
    have := h1 c (by simp)
    simp only [nameChar, notBrace, Bool.and_eq_true, bne_iff_ne, ne_eq] at this
    exact this.1.1.1.1
  | nil =>
    cases conv with
    | some v => exact ⟨'!', _, rfl, by decide⟩
    | none =>
      cases spec with
      | nil => exact ⟨'}', _, rfl, by decide⟩
      | cons x spec => exact ⟨':', _, rfl, by decide⟩

theorem next_field {f : Field} (h : f.OK) (r : Str) : next ('{' :: (f.inner ++ '}' :: r)) = .ok (⟨[], some f⟩, r) := by
  obtain ⟨d, r', e, hd⟩ := inner_head h r
  have hp := parseField_inner h r
  rw [e] at hp ⊢
  have hb : notBrace '{' = false := by decide
  simp only [next, List.dropWhile_cons, List.takeWhile_cons, hb]
  simp only [Bool.false_eq_true, if_false]
  rw [if_neg (fun he => hd he.symm), if_neg (by decide), hp]

/-! ### Formatting -/

theorem fmtS_char {c : Char} (hc : notBrace c = true) (s : Str) : fmtS env expand args (c :: s) = pre [c] (fmtS env expand args s) := by
  cases s with
  | nil =>
    rw [fmtS_step _ _ _ (by simp), next_one hc]
    rfl
  | cons d s =>
    rw [fmtS_step _ _ _ (by simp), next_char hc (by simp), fmtS_step env expand args (s := d :: s) (by simp)]
    cases next (d :: s) with
    | error e => rfl
    | ok p =>
      obtain ⟨⟨l, f⟩, r⟩ := p
      cases f with
      | none =>
        simp only [tokText, andThen, ← pre_append, List.cons_append, List.nil_append]
      | some f =>
        simp only [tokText]
        cases fieldText env expand args f with
        | error e => rfl
        | ok a => simp only [andThen, ← pre_append, List.cons_append, List.nil_append]

theorem fmtS_double {c : Char} (hc : notBrace c = false) (s : Str) :
    fmtS env expand args (c :: c :: s) = pre [c] (fmtS env expand args s) := by
  rw [fmtS_step _ _ _ (by simp), next_double hc]
  rfl

theorem fmtS_field {f : Field} (h : f.OK) (r : Str) : fmtS env expand args ('{' :: (f.inner ++ '}' :: r)) =
    andThen (fieldText env expand args f) (fmtS env expand args r) := by
  rw [fmtS_step _ _ _ (by simp), next_field h]
  simp only [tokText]
  cases fieldText env expand args f <;> rfl

theorem notBrace_iff {c : Char} : notBrace c = false ↔ c = '{' ∨ c = '}' := by
  simp only [notBrace, Bool.and_eq_false_iff, bne_eq_false_iff_eq]

theorem esc_cons (c : Char) (s : Str) : esc (c :: s) = (if notBrace c then [c] else [c, c]) ++ esc s := by
  simp only [esc, List.flatMap_cons]
  cases h : notBrace c with
  | true =>
    have : ¬ (c = '{' ∨ c = '}') := by rw [← notBrace_iff]; simp [h]
    simp [this]
  | false =>
    have := notBrace_iff.1 h
    simp [this]

theorem esc_append (a b : Str) : esc (a ++ b) = esc a ++ esc b := by simp [esc]

theorem esc_plain {s : Str} (h : ∀ c ∈ s, notBrace c = true) : esc s = s := by
  induction s with
  | nil => rfl
  | cons c s ih =>
    rw [esc_cons, h c (by simp), if_pos rfl, ih fun c hc => h c (by simp [hc])]
    rfl

theorem fmtS_esc (l s : Str) : fmtS env expand args (esc l ++ s) = pre l (fmtS env expand args s) := by
  induction l with
  | nil => exact (pre_nil _).symm
  | cons c l ih =>
    rw [esc_cons]
    cases h : notBrace c with
    | true =>
      rw [if_pos rfl, List.append_assoc, List.singleton_append, fmtS_char _ _ _ h, ih, ← pre_append]
      rfl
    | false =>
      rw [if_neg (by simp), List.append_assoc]
      show fmtS env expand args (c :: c :: (esc l ++ s)) = _
      rw [fmtS_double _ _ _ h, ih, ← pre_append]
      rfl

end

/-! ### SafeFormatter -/

section
variable (env : Env) (keys : List Str)

theorem parseN_fuel : ∀ (n m : Nat) (s : Str), s.length ≤ n → s.length ≤ m → parseN n s = parseN m s := by
  intro n
  induction n with
  | zero =>
    intro m s h1 _
    have : s = [] := List.length_eq_zero_iff.1 (by omega)
    subst this
    cases m <;> rfl
  | succ n ih =>
    intro m s h1 h2
    cases s with
    | nil => cases m <;> rfl
    | cons c s =>
      cases m with
      | zero => simp at h2
      | succ m =>
        simp only [parseN]
        cases hx : next (c :: s) with
        | error e => rfl
        | ok p =>
          obtain ⟨t, r⟩ := p
          have hl := next_len (by simp) hx
          simp only
          rw [ih m r (by omega) (by omega)]

/-- what `SafeFormatter` makes of a format string before it formats it -/
def guard (s : Str) : Py Str :=
  match parse s with
  | .error e => .error e
  | .ok ts => .ok (ts.flatMap (safeTok env keys))

theorem safeFormat_guard (args : Dict Str Val) (s : Str) : safeFormat env args s =
    match guard env (Dict.keys args) s with
    | .error e => .error e
    | .ok t => vformat env args t := by
  rw [safeFormat, guard]
  cases parse s <;> rfl

theorem guard_step {s : Str} (hs : s ≠ []) : guard env keys s =
    match next s with
    | .error e => .error e
    | .ok (t, r) => pre (safeTok env keys t) (guard env keys r) := by
  cases s with
  | nil => exact absurd rfl hs
  | cons c s =>
    rw [guard, parse, List.length_cons, parseN]
    cases hx : next (c :: s) with
    | error e => rfl
    | ok p =>
      obtain ⟨t, r⟩ := p
      have hl := next_len (by simp) hx
      simp only [List.length_cons] at hl
      simp only
      rw [parseN_fuel s.length r.length r (by omega) (by omega), ← parse, guard]
      cases parse r <;> simp [pre]

theorem guard_char {c : Char} (hc : notBrace c = true) (s : Str) : guard env keys (c :: s) = pre [c] (guard env keys s) := by
  have he : ∀ l, esc (c :: l) = [c] ++ esc l := by intro l; rw [esc_cons, hc, if_pos rfl]
  cases s with
  | nil =>
    rw [guard_step _ _ (by simp), next_one hc]
    simp only [safeTok, he]
    rfl
  | cons d s =>
    rw [guard_step _ _ (by simp), next_char hc (by simp), guard_step env keys (s := d :: s) (by simp)]
    cases next (d :: s) with
    | error e => rfl
    | ok p =>
      obtain ⟨⟨l, f⟩, r⟩ := p
      simp only [← pre_append]
      congr 1
      simp only [safeTok, he]
      cases f with
      | none => rfl
      | some f =>
        simp only
        split <;> simp

theorem guard_double {c : Char} (hc : notBrace c = false) (s : Str) : guard env keys (c :: c :: s) = pre [c, c] (guard env keys s) := by
  rw [guard_step _ _ (by simp), next_double hc]
  simp only [safeTok, esc_cons, hc]
  rfl

theorem guard_field {f : Field} (h : f.OK) (r : Str) : guard env keys ('{' :: (f.inner ++ '}' :: r)) =
    pre (safeTok env keys ⟨[], some f⟩) (guard env keys r) := by
  rw [guard_step _ _ (by simp), next_field h]

theorem guard_esc (l s : Str) : guard env keys (esc l ++ s) = pre (esc l) (guard env keys s) := by
  induction l with
  | nil => exact (pre_nil _).symm
  | cons c l ih =>
    rw [esc_cons]
    cases h : notBrace c with
    | true =>
      rw [if_pos rfl, List.append_assoc, List.singleton_append, guard_char _ _ h, ih, ← pre_append]
    | false =>
      rw [if_neg (by simp), List.append_assoc]
      show guard env keys (c :: c :: (esc l ++ s)) = _
      rw [guard_double _ _ h, ih, ← pre_append]

end
end Xigt.Fmt
