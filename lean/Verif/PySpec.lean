import Verif.Import.NumLemmas
import Verif.Ref.Ops
import Verif.DictLemmas
/-
What the models of Python's own functions in Verif/Py.lean do, stated without them: many statements of properties use these
functions on both sides, so that an error in them would not show there.
-/

set_option linter.unusedSectionVars false

namespace Xigt

/-! ### Texts -/

/-- `t` is what stands in `s` between the first and the last character that `p` is not true of -/
def Trimmed (p : Char → Bool) (s t : Str) : Prop :=
  ∃ a b, s = a ++ t ++ b ∧ (∀ c ∈ a, p c = true) ∧ (∀ c ∈ b, p c = true) ∧ (∀ c, t.head? = some c → p c = false) ∧ ∀ c, t.getLast? = some c → p c = false

theorem dropWhile_spec (p : Char → Bool) (s : Str) : ∃ a, s = a ++ s.dropWhile p ∧ (∀ c ∈ a, p c = true) ∧ ∀ c, (s.dropWhile p).head? = some c → p c = false := by
  induction s with
  | nil => exact ⟨[], rfl, by simp, by simp⟩
  | cons d s ih =>
    obtain ⟨a, h1, h2, h3⟩ := ih
    by_cases h : p d = true
    · rw [List.dropWhile_cons, if_pos h]
      refine ⟨d :: a, by rw [List.cons_append, ← h1], ?_, h3⟩
      intro c hc
      rcases List.mem_cons.1 hc with rfl | hc
      · exact h
      · exact h2 c hc
    · rw [List.dropWhile_cons, if_neg h]
      refine ⟨[], rfl, by simp, ?_⟩
      intro c hc
      cases hc
      simpa using h

theorem trim_spec (p : Char → Bool) (s : Str) : Trimmed p s ((s.dropWhile p).reverse.dropWhile p).reverse := by
  obtain ⟨a, h1, h2, h3⟩ := dropWhile_spec p s
  obtain ⟨b, g1, g2, g3⟩ := dropWhile_spec p (s.dropWhile p).reverse
  have e : s.dropWhile p = ((s.dropWhile p).reverse.dropWhile p).reverse ++ b.reverse := by
    rw [← List.reverse_append, ← g1, List.reverse_reverse]
  refine ⟨a, b.reverse, ?_, h2, fun c hc => g2 c (List.mem_reverse.1 hc), ?_, ?_⟩
  · rw [List.append_assoc, ← e, ← h1]
  · intro c hc
    apply h3
    rw [e, List.head?_append, hc]
    rfl
  · intro c hc
    rw [List.getLast?_reverse] at hc
    exact g3 c hc

theorem trimmed_unique {p : Char → Bool} {s t u : Str} (h : Trimmed p s t) (g : Trimmed p s u) : t = u := by
  obtain ⟨a, b, h1, h2, h3, h4, h5⟩ := h
  obtain ⟨c, d, g1, g2, g3, g4, g5⟩ := g
  have key : ∀ {a c x y : Str}, a ++ x = c ++ y → (∀ k ∈ a, p k = true) → (∀ k ∈ c, p k = true) →
      (∀ k, x.head? = some k → p k = false) → (∀ k, y.head? = some k → p k = false) → x = y := by
    intro a
    induction a with
    | nil =>
      intro c x y e _ hc hx _
      cases c with
      | nil => exact e
      | cons k c =>
        have := hx k (by rw [show x = _ from e]; rfl)
        rw [hc k (by simp)] at this
        cases this
    | cons k a ih =>
      intro c x y e ha hc hx hy
      cases c with
      | nil =>
        have := hy k (by rw [show y = _ from e.symm]; rfl)
        rw [ha k (by simp)] at this
        cases this
      | cons m c =>
        simp only [List.cons_append, List.cons.injEq] at e
        exact ih e.2 (fun q hq => ha q (by simp [hq])) (fun q hq => hc q (by simp [hq])) hx hy
  have allp : ∀ {x b : Str}, (∀ k, x.head? = some k → p k = false) → (∀ k ∈ x ++ b, p k = true) → x = [] := by
    intro x b hx ha
    cases x with
    | nil => rfl
    | cons k x =>
      have := hx k rfl
      rw [ha k (by simp)] at this
      cases this
  have hd : ∀ {t b : Str}, (∀ c ∈ b, p c = true) → (∀ k, t.head? = some k → p k = false) → t ≠ [] → ∀ k, (t ++ b).head? = some k → p k = false := by
    intro t b _ ht hn k hk
    cases t with
    | nil => exact absurd rfl hn
    | cons m t => exact ht k hk
  have nil_of : ∀ {a b c d t u : Str}, a ++ t ++ b = c ++ u ++ d → (∀ k ∈ a, p k = true) → (∀ k ∈ b, p k = true) → t = [] →
      (∀ k, u.head? = some k → p k = false) → u = [] := by
    intro a b c d t u e ha hb ht hu
    subst ht
    apply allp (b := []) hu
    intro k hk
    rw [List.append_nil] at hk
    have : k ∈ a ++ [] ++ b := by rw [e]; simp [hk]
    rw [List.append_nil] at this
    rcases List.mem_append.1 this with q | q
    · exact ha k q
    · exact hb k q
  have e := h1.symm.trans g1
  by_cases ht : t = []
  · rw [ht, nil_of e h2 h3 ht g4]
  · by_cases hu : u = []
    · exact absurd (nil_of e.symm g2 g3 hu h4) ht
    · have e1 : t ++ b = u ++ d := by
        apply key (a := a) (c := c) (by rw [← List.append_assoc, ← List.append_assoc]; exact e) h2 g2 (hd h3 h4 ht) (hd g3 g4 hu)
      have e2 : b.reverse ++ t.reverse = d.reverse ++ u.reverse := by rw [← List.reverse_append, ← List.reverse_append, e1]
      have := key e2 (fun k hk => h3 k (List.mem_reverse.1 hk)) (fun k hk => g3 k (List.mem_reverse.1 hk))
        (fun k hk => h5 k (by rwa [List.head?_reverse] at hk)) (fun k hk => g5 k (by rwa [List.head?_reverse] at hk))
      simpa using congrArg List.reverse this

/-- `s.strip(chars)` -/
theorem py_stripChars (chars s : Str) : Trimmed (chars.contains ·) s (stripChars chars s) := trim_spec _ s

/-- `sep.join(xs)` -/
theorem py_join (sep : Str) : ∀ xs : List Str, join sep xs = (xs.intersperse sep).flatten
  | [] => rfl
  | [x] => by simp [join]
  | x :: y :: ys => by
    rw [join, py_join sep (y :: ys)]
    simp [List.intersperse]

/-- `s.split(c, 1)` -/
theorem py_splitOnce (c : Char) (s : Str) : (∀ a b, splitOnce c s = some (a, b) ↔ s = a ++ c :: b ∧ c ∉ a) ∧ (splitOnce c s = none ↔ c ∉ s) := by
  induction s with
  | nil => 
    refine ⟨fun a b => ⟨fun h => by simp [splitOnce] at h, fun h => ?_⟩, by simp [splitOnce]⟩
    have := h.1
    cases a <;> simp at this
  | cons x s ih =>
    unfold splitOnce
    by_cases hx : x = c
    · subst hx
      rw [if_pos rfl]
      refine ⟨fun a b => ⟨fun h => ?_, fun h => ?_⟩, by simp⟩
      · simp only [Option.some.injEq, Prod.mk.injEq] at h
        obtain ⟨rfl, rfl⟩ := h
        exact ⟨rfl, by simp⟩
      · cases a with
        | nil => simp only [List.nil_append, List.cons.injEq, true_and] at h; rw [h.1]
        | cons y a => 
          simp only [List.cons_append, List.cons.injEq, List.mem_cons, not_or] at h
          exact absurd h.1.1 h.2.1
    · rw [if_neg hx]
      refine ⟨fun a b => ⟨fun h => ?_, fun h => ?_⟩, ?_⟩
      · cases hs : splitOnce c s with
        | none => rw [hs] at h; cases h
        | some q =>
          obtain ⟨u, v⟩ := q
          rw [hs] at h
          simp only [Option.some.injEq, Prod.mk.injEq] at h
          obtain ⟨rfl, rfl⟩ := h
          obtain ⟨e, n⟩ := (ih.1 u v).1 hs
          exact ⟨by rw [e]; rfl, by simp [n, Ne.symm hx]⟩
      · cases a with
        | nil => simp only [List.nil_append, List.cons.injEq] at h; exact absurd h.1.1 hx
        | cons y a =>
          simp only [List.cons_append, List.cons.injEq, List.mem_cons, not_or] at h
          rw [(ih.1 a b).2 ⟨h.1.2, h.2.2⟩, h.1.1]
      · cases hs : splitOnce c s with
        | none => simp [ih.2.1 hs, Ne.symm hx]
        | some q =>
          obtain ⟨u, v⟩ := q
          have := (ih.1 u v).1 hs
          simp [this.1]

section
variable [Uni]

/-- `s.strip()` -/
theorem py_strip (s : Str) : Trimmed Uni.isSpace s (strip s) := trim_spec _ s

/-! ### Numbers -/

/-- digits in groups -/
def Groups (gs : List Str) : Prop := gs ≠ [] ∧ ∀ g ∈ gs, g ≠ [] ∧ ∀ c ∈ g, (Uni.digit c).isSome = true

/-- `s` is a sign, or none, and digits in groups with underscores between them, of value `n` -/
def Numeral (s : Str) (n : Int) : Prop :=
  ∃ sign gs, s = sign ++ join ['_'] gs ∧ Groups gs ∧
    ((sign = [] ∨ sign = ['+']) ∧ n = decVal gs.flatten ∨ sign = ['-'] ∧ n = -(decVal gs.flatten : Int))

theorem parseDigits_iff : ∀ (s : Str) (acc n : Nat) (sep : Bool), parseDigits s acc sep = some n ↔
    ∃ gs : List Str, (∀ c ∈ gs.headD [], (Uni.digit c).isSome = true) ∧ (∀ g ∈ gs.tail, g ≠ [] ∧ ∀ c ∈ g, (Uni.digit c).isSome = true) ∧
      (sep = true → gs.headD [] ≠ []) ∧ gs ≠ [] ∧ s = join ['_'] gs ∧ n = gs.flatten.foldl (fun acc c => 10 * acc + (Uni.digit c).getD 0) acc := by
  intro s
  induction s with
  | nil =>
    intro acc n sep
    unfold parseDigits
    constructor
    · intro h
      cases sep with
      | true => simp at h
      | false =>
        simp only [Bool.false_eq_true, if_false, Option.some.injEq] at h
        exact ⟨[[]], by simp, by simp, by simp, by simp, rfl, by simp [h]⟩
    · rintro ⟨gs, h1, h2, h3, h4, h5, h6⟩
      cases gs with
      | nil => exact absurd rfl h4
      | cons g gs =>
        have hg : g = [] ∧ gs = [] := by
          cases gs with
          | nil => exact ⟨by simpa [join] using h5.symm, rfl⟩
          | cons k ks => simp [join] at h5
        obtain ⟨rfl, rfl⟩ := hg
        cases sep with
        | true => simp at h3
        | false => simp [h6]
  | cons c s ih =>
    intro acc n sep
    unfold parseDigits
    by_cases hc : c = '_'
    · subst hc
      rw [if_pos rfl]
      cases sep with
      | true =>
        simp only [if_true]
        constructor
        · intro h; cases h
        · rintro ⟨gs, h1, h2, h3, h4, h5, h6⟩
          cases gs with
          | nil => exact absurd rfl h4
          | cons g gs =>
            exfalso
            cases g with
            | nil => exact absurd rfl (h3 trivial)
            | cons d g =>
              have hd : d = '_' := by
                cases gs with
                | nil => simp [join] at h5; exact h5.1.symm
                | cons k ks => simp [join] at h5; exact h5.1.symm
              subst hd
              have := h1 '_' (by simp)
              rw [digit_underscore] at this
              cases this
      | false =>
        simp only [Bool.false_eq_true, if_false]
        rw [ih acc n true]
        constructor
        · rintro ⟨gs, h1, h2, h3, h4, h5, h6⟩
          cases gs with
          | nil => exact absurd rfl h4
          | cons g gs =>
            refine ⟨[] :: g :: gs, by simp, ?_, by simp, by simp, by simp [join, h5], by simp [h6]⟩
            intro k hk
            rcases List.mem_cons.1 hk with rfl | hk
            · exact ⟨h3 rfl, h1⟩
            · exact h2 k hk
        · rintro ⟨gs, h1, h2, h3, h4, h5, h6⟩
          cases gs with
          | nil => exact absurd rfl h4
          | cons g gs =>
            cases g with
            | nil =>
              cases gs with
              | nil => simp [join] at h5
              | cons k ks =>
                have hk := h2 k (by simp)
                refine ⟨k :: ks, hk.2, fun q hq => h2 q (by simp at hq ⊢; exact .inr hq), fun _ => hk.1, by simp, by simpa [join] using h5, by simpa using h6⟩
            | cons d g =>
              exfalso
              have hd : d = '_' := by
                cases gs with
                | nil => simp [join] at h5; exact h5.1.symm
                | cons k ks => simp [join] at h5; exact h5.1.symm
              subst hd
              have := h1 '_' (by simp)
              rw [digit_underscore] at this
              cases this
    · rw [if_neg hc]
      cases hd : Uni.digit c with
      | none =>
        simp only
        constructor
        · intro h; cases h
        · rintro ⟨gs, h1, h2, h3, h4, h5, h6⟩
          exfalso
          cases gs with
          | nil => exact absurd rfl h4
          | cons g gs =>
            cases g with
            | nil =>
              cases gs with
              | nil => simp [join] at h5
              | cons k ks => simp [join] at h5; exact hc h5.1
            | cons d g =>
              have hd' : d = c := by
                cases gs with
                | nil => simp [join] at h5; exact h5.1.symm
                | cons k ks => simp [join] at h5; exact h5.1.symm
              subst hd'
              have := h1 d (by simp)
              rw [hd] at this
              cases this
      | some d =>
        simp only
        rw [ih (acc * 10 + d) n false]
        constructor
        · rintro ⟨gs, h1, h2, h3, h4, h5, h6⟩
          cases gs with
          | nil => exact absurd rfl h4
          | cons g gs =>
            refine ⟨(c :: g) :: gs, ?_, h2, by simp, by simp, ?_, ?_⟩
            · intro k hk
              rcases List.mem_cons.1 hk with rfl | hk
              · rw [hd]; rfl
              · exact h1 k hk
            · cases gs with
              | nil => simpa [join] using h5
              | cons k ks => simp only [join] at h5 ⊢; rw [h5]; rfl
            · rw [h6]; simp [hd, Nat.mul_comm]
        · rintro ⟨gs, h1, h2, h3, h4, h5, h6⟩
          cases gs with
          | nil => exact absurd rfl h4
          | cons g gs =>
            cases g with
            | nil =>
              exfalso
              cases gs with
              | nil => simp [join] at h5
              | cons k ks => simp [join] at h5; exact hc h5.1
            | cons e g =>
              have hs : e = c ∧ s = join ['_'] (g :: gs) := by
                cases gs with
                | nil => simp [join] at h5 ⊢; exact ⟨h5.1.symm, h5.2⟩
                | cons k ks => simp [join] at h5 ⊢; exact ⟨h5.1.symm, h5.2⟩
              obtain ⟨rfl, hs⟩ := hs
              refine ⟨g :: gs, fun k hk => h1 k (by simp at hk ⊢; exact .inr hk), h2, by simp, by simp, hs, ?_⟩
              rw [h6]; simp [hd, Nat.mul_comm]

theorem parseNat_iff (s : Str) (n : Nat) : parseNat s = some n ↔ ∃ gs, Groups gs ∧ s = join ['_'] gs ∧ n = decVal gs.flatten := by
  constructor
  · intro h
    cases s with
    | nil => simp [parseNat] at h
    | cons c cs =>
      unfold parseNat at h
      cases hd : Uni.digit c with
      | none => simp [hd] at h
      | some d =>
        simp only [hd] at h
        obtain ⟨gs, h1, h2, h3, h4, h5, h6⟩ := (parseDigits_iff _ _ _ _).1 h
        cases gs with
        | nil => exact absurd rfl h4
        | cons g gs =>
          refine ⟨(c :: g) :: gs, ⟨by simp, ?_⟩, ?_, ?_⟩
          · intro k hk
            rcases List.mem_cons.1 hk with rfl | hk
            · refine ⟨by simp, fun q hq => ?_⟩
              rcases List.mem_cons.1 hq with rfl | hq
              · rw [hd]; rfl
              · exact h1 q hq
            · exact h2 k hk
          · cases gs with
            | nil => simpa [join] using h5
            | cons k ks => simp only [join] at h5 ⊢; rw [h5]; rfl
          · rw [h6]; simp [decVal, hd]
  · rintro ⟨gs, ⟨h1, h2⟩, h3, h4⟩
    cases gs with
    | nil => exact absurd rfl h1
    | cons g gs =>
      have hg := h2 g (by simp)
      cases g with
      | nil => exact absurd rfl hg.1
      | cons c g =>
        obtain ⟨d, hd⟩ := Option.isSome_iff_exists.1 (hg.2 c (by simp))
        have hs : s = c :: join ['_'] (g :: gs) := by
          rw [h3]
          cases gs <;> rfl
        rw [hs, parseNat, hd]
        refine (parseDigits_iff _ _ _ _).2 ⟨g :: gs, fun k hk => hg.2 k (by simp at hk ⊢; exact .inr hk), fun k hk => h2 k (by simp at hk ⊢; exact .inr hk), by simp, by simp, rfl, ?_⟩
        rw [h4]; simp [decVal, hd]

theorem groups_head {gs : List Str} (h : Groups gs) : ∃ c cs, join ['_'] gs = c :: cs ∧ (Uni.digit c).isSome = true := by
  obtain ⟨h1, h2⟩ := h
  cases gs with
  | nil => exact absurd rfl h1
  | cons g gs =>
    have hg := h2 g (by simp)
    cases g with
    | nil => exact absurd rfl hg.1
    | cons c g =>
      cases gs with
      | nil => exact ⟨c, g, rfl, hg.2 c (by simp)⟩
      | cons k ks => exact ⟨c, _, rfl, hg.2 c (by simp)⟩

/-- `int(s)`: a numeral with white space around it; else ValueError -/
theorem py_int (s : Str) (n : Int) : (pyInt s = .ok n ↔ ∃ t, Trimmed Uni.isSpace s t ∧ Numeral t n) ∧
    ((∀ m, pyInt s ≠ .ok m) → pyInt s = .error .valueError) := by
  have key : ∀ t : Str, (match t with
      | [] => (.error .valueError : Py Int)
      | c :: cs =>
        if c = '-' then
          match parseNat cs with
          | some n => .ok (-(n : Int))
          | none => .error .valueError
        else if c = '+' then
          match parseNat cs with
          | some n => .ok (n : Int)
          | none => .error .valueError
        else match parseNat (c :: cs) with
          | some n => .ok (n : Int)
          | none => .error .valueError) = .ok n ↔ Numeral t n := by
    intro t
    constructor
    · intro h
      split at h
      · cases h
      · rename_i c cs
        split at h
        · rename_i hc
          split at h
          · rename_i m hm
            cases h
            obtain ⟨gs, hg, e, v⟩ := (parseNat_iff _ _).1 hm
            exact ⟨['-'], gs, by rw [hc, e]; rfl, hg, .inr ⟨rfl, by rw [v]⟩⟩
          · cases h
        · split at h
          · rename_i hc
            split at h
            · rename_i m hm
              cases h
              obtain ⟨gs, hg, e, v⟩ := (parseNat_iff _ _).1 hm
              exact ⟨['+'], gs, by rw [hc, e]; rfl, hg, .inl ⟨.inr rfl, by rw [v]⟩⟩
            · cases h
          · split at h
            · rename_i m hm
              cases h
              obtain ⟨gs, hg, e, v⟩ := (parseNat_iff _ _).1 hm
              exact ⟨[], gs, by rw [e]; rfl, hg, .inl ⟨.inl rfl, by rw [v]⟩⟩
            · cases h
    · rintro ⟨sign, gs, e, hg, h⟩
      have hp := (parseNat_iff (join ['_'] gs) (decVal gs.flatten)).2 ⟨gs, hg, rfl, rfl⟩
      rcases h with ⟨h | h, hn⟩ | ⟨h, hn⟩
      · subst h
        obtain ⟨c, cs, ec, hc⟩ := groups_head hg
        rw [e, List.nil_append, ec]
        rw [ec] at hp
        have h1 : c ≠ '-' := by rintro rfl; simp [digit_dash] at hc
        have h2 : c ≠ '+' := by rintro rfl; simp [digit_plus] at hc
        simp only [if_neg h1, if_neg h2, hp, hn]
      · subst h
        rw [e]
        simp [hp, hn]
      · subst h
        rw [e]
        simp [hp, hn]
  constructor
  · have key' : pyInt s = .ok n ↔ Numeral (strip s) n := by
      rw [← key (strip s), pyInt]
      cases strip s <;> rfl
    rw [key']
    constructor
    · intro h; exact ⟨_, py_strip s, h⟩
    · rintro ⟨t, ht, h⟩; rwa [trimmed_unique (py_strip s) ht]
  · intro h
    cases hp : pyInt s with
    | ok m => exact absurd hp (h m)
    | error e =>
      unfold pyInt at hp
      repeat' split at hp
      all_goals first | cases hp; rfl | cases hp

/-- `str(i)` is a numeral of this value; it has no needless zero, sign or underscore -/
theorem py_str (i : Int) : pyInt (intStr i) = .ok i ∧ (∀ c ∈ intStr i, c = '-' ∨ (Uni.digit c).isSome = true) ∧
    ((intStr i).head? = some '-' ↔ i < 0) ∧ ((intStr i).head? = some '0' → i = 0 ∧ intStr i = ['0']) := by
  have h0 : ∀ (f n : Nat), n < f → (natStrAux f n).head? = some '0' → n = 0 := by
    intro f
    induction f with
    | zero => intro n h; omega
    | succ f ih =>
      intro n h hh
      unfold natStrAux at hh
      split at hh
      · rename_i h10
        have : ∀ d : Fin 10, digitChar d.1 = '0' → d.1 = 0 := by decide
        exact this ⟨n, h10⟩ (by simpa using hh)
      · rename_i h10
        rw [List.head?_append] at hh
        cases ha : (natStrAux f (n / 10)).head? with
        | none =>
          have : natStrAux f (n / 10) = [] := by simpa using ha
          have := decVal_natStrAux f (n / 10) (by omega)
          simp_all [decVal]
          omega
        | some c =>
          rw [ha] at hh
          have := ih (n / 10) (by omega) (by rw [ha]; simpa using hh)
          omega
  have hdash : ∀ n, (natStr n).head? ≠ some '-' := by
    intro n h
    have := natStr_digits n '-' (List.mem_of_head? h)
    rw [digit_dash] at this
    cases this
  cases i with
  | ofNat n =>
    refine ⟨?_, fun c hc => .inr (natStr_digits n c hc), ⟨fun h => absurd h (hdash n), fun h => by simp at h; omega⟩, fun h => ?_⟩
    · have := pyInt_num (natNum_ok n)
      rw [natNum_render, natNum_value] at this
      exact this
    · have := h0 (n + 1) n (by omega) h
      subst this
      exact ⟨rfl, rfl⟩
  | negSucc n =>
    refine ⟨?_, ?_, ⟨fun _ => by omega, fun _ => rfl⟩, fun h => ?_⟩
    · have := pyInt_num (n := ⟨true, natStr (n + 1)⟩) ⟨natStr_ne_nil _, natStr_digits _⟩
      simp only [Num.render, Num.value, if_true, decVal_natStr] at this
      exact this
    · intro c hc
      rcases List.mem_cons.1 hc with rfl | hc
      · exact .inl rfl
      · exact .inr (natStr_digits _ c hc)
    · simp [intStr] at h

end

/-! ### Lists -/

/-- `xs[i]` -/
theorem py_get {α} (xs : List α) (i : Int) : (∀ x, pyGet xs i = .ok x ↔ ∃ k : Nat, xs[k]? = some x ∧ (i = k ∨ i = (k : Int) - xs.length)) ∧
    (pyGet xs i = .error .indexError ↔ i < -(xs.length : Int) ∨ (xs.length : Int) ≤ i) := by
  have hlt : ∀ {k : Nat} {x : α}, xs[k]? = some x → k < xs.length := fun h => (List.getElem?_eq_some_iff.1 h).1
  unfold pyGet pyIdx
  by_cases h0 : 0 ≤ i
  · rw [if_pos h0]
    by_cases h1 : i < xs.length
    · rw [if_pos h1]
      have hk : i.toNat < xs.length := by omega
      have hg : xs[i.toNat]? = some (xs[i.toNat]'hk) := List.getElem?_eq_getElem hk
      simp only [hg]
      refine ⟨fun x => ⟨fun h => ⟨i.toNat, by rw [hg]; cases h; rfl, by omega⟩, ?_⟩, ⟨fun h => (nomatch h), fun h => by omega⟩⟩
      rintro ⟨k, hx, h⟩
      have := hlt hx
      have : k = i.toNat := by omega
      subst this
      rw [hg] at hx
      cases hx; rfl
    · rw [if_neg h1]
      refine ⟨fun x => ⟨fun h => (nomatch h), ?_⟩, by simp; omega⟩
      rintro ⟨k, hx, h⟩
      have := hlt hx
      omega
  · rw [if_neg h0]
    by_cases h1 : 0 ≤ i + xs.length
    · rw [if_pos h1]
      have hk : (i + xs.length).toNat < xs.length := by omega
      have hg : xs[(i + xs.length).toNat]? = some (xs[(i + xs.length).toNat]'hk) := List.getElem?_eq_getElem hk
      simp only [hg]
      refine ⟨fun x => ⟨fun h => ⟨(i + xs.length).toNat, by rw [hg]; cases h; rfl, by omega⟩, ?_⟩, ⟨fun h => (nomatch h), fun h => by omega⟩⟩
      rintro ⟨k, hx, h⟩
      have := hlt hx
      have : k = (i + xs.length).toNat := by omega
      subst this
      rw [hg] at hx
      cases hx; rfl
    · rw [if_neg h1]
      refine ⟨fun x => ⟨fun h => (nomatch h), ?_⟩, by simp; omega⟩
      rintro ⟨k, hx, h⟩
      have := hlt hx
      omega

/-- `xs.insert(i, x)`: before the element at `i`, counted from the end if negative; at an end if there is none -/
theorem py_insert {α} (xs : List α) (i : Int) (x : α) : ∃ a b, xs = a ++ b ∧ pyInsert xs i x = a ++ x :: b ∧
    (a.length : Int) = max 0 (min (xs.length : Int) (if i < 0 then xs.length + i else i)) := by
  refine ⟨xs.take (clip xs.length i), xs.drop (clip xs.length i), (List.take_append_drop _ _).symm, rfl, ?_⟩
  rw [List.length_take]
  unfold clip
  split <;> omega

/-! ### Dicts -/

section
variable {κ ν : Type} [DecidableEq κ]

/-- `d.get(k)` -/
theorem py_dict_get (d : Dict κ ν) (h : d.WF) (k : κ) (v : ν) : Dict.get? d k = some v ↔ (k, v) ∈ d := by
  induction d with
  | nil => simp [Dict.get?]
  | cons p d ih =>
    obtain ⟨a, b⟩ := p
    have hn : a ∉ Dict.keys d ∧ Dict.WF d := by simpa [Dict.WF, Dict.keys] using h
    unfold Dict.get?
    by_cases ha : a = k
    · subst ha
      rw [if_pos rfl]
      constructor
      · intro e; cases e; simp
      · intro e
        rcases List.mem_cons.1 e with e | e
        · cases e; rfl
        · exact absurd (List.mem_map.2 ⟨_, e, rfl⟩) hn.1
    · rw [if_neg ha, ih hn.2]
      simp [Ne.symm ha]

/-- `d[k] = v`: the order of keys stays, and a new key comes last -/
theorem py_dict_set (d : Dict κ ν) (k : κ) (v : ν) : (∀ j, Dict.get? (Dict.set d k v) j = if j = k then some v else Dict.get? d j) ∧
    (k ∈ Dict.keys d → Dict.keys (Dict.set d k v) = Dict.keys d) ∧ (k ∉ Dict.keys d → Dict.keys (Dict.set d k v) = Dict.keys d ++ [k]) := by
  constructor
  · intro j
    rw [Dict.get?_set]
    by_cases h : k = j
    · rw [if_pos h, if_pos h.symm]
    · rw [if_neg h, if_neg (Ne.symm h)]
  · unfold Dict.keys
    induction d with
    | nil => simp [Dict.set]
    | cons p d ih =>
      obtain ⟨a, b⟩ := p
      unfold Dict.set
      by_cases ha : a = k
      · simp [ha]
      · rw [if_neg ha]
        simp only [List.map_cons, List.mem_cons, Ne.symm ha, false_or, List.cons_append]
        exact ⟨fun h => by rw [ih.1 h], fun h => by rw [ih.2 h]⟩

end
end Xigt
