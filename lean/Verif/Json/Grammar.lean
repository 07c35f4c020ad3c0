import Verif.Json.Reads
/-
C158: exactly the JSON texts are read (C113 is the same for XML).  The grammar is that of RFC 8259, without numbers, `true` and `false`, which
corpora do not have; strings can be any text of characters, written plain or escaped.
-/

set_option linter.unusedSectionVars false

namespace Xigt.Js

/-! ### Spec: the grammar, and what texts say -/

/-- white space -/
def Ws (s : Str) : Prop := ∀ c ∈ s, c ∈ (lit! " \t\n\r" : Str)

/-- a digit to the base 16 -/
def Hex (c : Char) (n : Nat) : Prop := (n < 10 ∧ c.toNat = 0x30 + n) ∨ (10 ≤ n ∧ n < 16 ∧ (c.toNat = 0x61 + (n - 10) ∨ c.toNat = 0x41 + (n - 10)))

/-- a number in these -/
inductive Digits : Str → Nat → Prop
  | nil : Digits [] 0
  | snoc {s : Str} {v : Nat} {c : Char} {d : Nat} : Digits s v → Hex c d → Digits (s ++ [c]) (v * 16 + d)

/-- four digits -/
def Unit (s : Str) (v : Nat) : Prop := Digits s v ∧ s.length = 4

/-- the escapes of one character -/
def escapes : List (Char × Char) :=
  [('"', '"'), ('\\', '\\'), ('/', '/'), ('b', Char.ofNat 0x8), ('f', Char.ofNat 0xC), ('n', Char.ofNat 0xA), ('r', Char.ofNat 0xD), ('t', Char.ofNat 0x9)]

/-- how a character of a string can be written: as it is, escaped, by its number, or by the two halves of a surrogate pair -/
inductive Ch : Str → Char → Prop
  | plain {c : Char} : c ≠ '"' → c ≠ '\\' → 0x20 ≤ c.toNat → Ch [c] c
  | esc {e c : Char} : (e, c) ∈ escapes → Ch ['\\', e] c
  | unit {s : Str} {c : Char} : Unit s c.toNat → Ch ('\\' :: 'u' :: s) c
  | pair {s t : Str} {hi lo : Nat} {c : Char} : Unit s hi → Unit t lo → 0xD800 ≤ hi → hi < 0xDC00 → 0xDC00 ≤ lo → lo < 0xE000 →
      c.toNat = 0x10000 + (hi - 0xD800) * 0x400 + (lo - 0xDC00) → Ch ('\\' :: 'u' :: (s ++ '\\' :: 'u' :: t)) c

/-- the characters of a string -/
inductive Chars : Str → Str → Prop
  | nil : Chars [] []
  | snoc {s t u : Str} {c : Char} : Chars s t → Ch u c → Chars (s ++ u) (t ++ [c])

/-- the keys, each where it is first -/
def keysOf {ν : Type} : List (Str × ν) → List Str
  | [] => []
  | p :: l => p.1 :: (keysOf l).filter (fun k => k ≠ p.1)

/-- an object of the members, in order: of members with the same key the last one counts, in the place of the first -/
def dictOf {ν : Type} (l : List (Str × ν)) : List (Str × ν) := (keysOf l).filterMap fun k => l.reverse.find? fun p => p.1 = k

mutual
/-- a value -/
inductive Value : Str → J → Prop
  | null : Value (lit! "null") .null
  | str {s t : Str} : Chars s t → Value ('"' :: (s ++ ['"'])) (.str t)
  | arr0 {w : Str} : Ws w → Value ('[' :: (w ++ [']'])) (.arr [])
  | arr {p a s b : Str} {l : List J} {j : J} : Items p l → Ws a → Value s j → Ws b → Value ('[' :: (p ++ (a ++ (s ++ (b ++ [']']))))) (.arr (l ++ [j]))
  | obj0 {w : Str} : Ws w → Value ('{' :: (w ++ ['}'])) (.obj [])
  | obj {p s : Str} {l : List (Str × J)} {k : Str} {j : J} : Members p l → Member s k j → Value ('{' :: (p ++ (s ++ ['}']))) (.obj (dictOf (l ++ [(k, j)])))
/-- values, each followed by a comma -/
inductive Items : Str → List J → Prop
  | nil : Items [] []
  | snoc {p a s b : Str} {l : List J} {j : J} : Items p l → Ws a → Value s j → Ws b → Items (p ++ (a ++ (s ++ (b ++ [','])))) (l ++ [j])
/-- members, each followed by a comma -/
inductive Members : Str → List (Str × J) → Prop
  | nil : Members [] []
  | snoc {p s : Str} {l : List (Str × J)} {k : Str} {j : J} : Members p l → Member s k j → Members (p ++ (s ++ [','])) (l ++ [(k, j)])
/-- a key and a value -/
inductive Member : Str → Str → J → Prop
  | mk {a t k b c s d : Str} {j : J} : Ws a → Chars t k → Ws b → Ws c → Value s j → Ws d →
      Member (a ++ ('"' :: (t ++ ('"' :: (b ++ (':' :: (c ++ (s ++ d)))))))) k j
end

/-- a text says a value -/
def Text (s : Str) (j : J) : Prop := ∃ a v b, s = a ++ (v ++ b) ∧ Ws a ∧ Value v j ∧ Ws b

/-! ### Characters -/

theorem jSpace_iff (c : Char) : jSpace c = true ↔ c ∈ (lit! " \t\n\r" : Str) := by
  simp [jSpace]
  constructor
  · rintro (((h | h) | h) | h) <;> simp [h]
  · rintro (h | h | h | h) <;> simp [h]

theorem ws_space {w : Str} (h : Ws w) : ∀ c ∈ w, jSpace c = true := fun c hc => (jSpace_iff c).2 (h c hc)

theorem ws_snoc {w : Str} (h : Ws w) {c : Char} (hc : jSpace c = true) : Ws (w ++ [c]) := by
  intro d hd
  rcases List.mem_append.1 hd with hd | hd
  · exact h d hd
  · cases List.mem_singleton.1 hd
    exact (jSpace_iff c).1 hc

theorem ws_nil : Ws [] := fun _ h => by cases h

theorem hexVal_iff (c : Char) (n : Nat) : hexVal c = some n ↔ Hex c n := by
  unfold hexVal Hex
  have h0 : ('0' ≤ c) ↔ 48 ≤ c.toNat := Iff.rfl
  have h9 : (c ≤ '9') ↔ c.toNat ≤ 57 := Iff.rfl
  have ha : ('a' ≤ c) ↔ 97 ≤ c.toNat := Iff.rfl
  have hf : (c ≤ 'f') ↔ c.toNat ≤ 102 := Iff.rfl
  have hA : ('A' ≤ c) ↔ 65 ≤ c.toNat := Iff.rfl
  have hF : (c ≤ 'F') ↔ c.toNat ≤ 70 := Iff.rfl
  simp only [h0, h9, ha, hf, hA, hF]
  split
  · simp only [Option.some.injEq]; omega
  split
  · simp only [Option.some.injEq]; omega
  split
  · simp only [Option.some.injEq]; omega
  · constructor
    · intro h; cases h
    · intro h; omega

theorem hex_lt {c : Char} {n : Nat} (h : Hex c n) : n < 16 := by
  rcases h with h | h <;> omega

theorem digits_lt {s : Str} {v : Nat} (h : Digits s v) : v < 16 ^ s.length := by
  induction h with
  | nil => simp
  | snoc h1 h2 ih =>
    have := hex_lt h2
    rw [List.length_append, List.length_singleton, Nat.pow_succ]
    omega

/-! ### What is in the grammar is read -/

theorem run_digits {r : JRd} {k : Bool} {acc : Str} {s : Str} {v : Nat} (h : Digits s v) : ∀ n, s.length < n → r.mode = .uni k acc n 0 →
    r.run s = .ok { r with mode := .uni k acc (n - s.length) v } := by
  induction h with
  | nil => intro n hn hm; simp [JRd.run, ← hm]
  | @snoc s v c d h1 h2 ih =>
    intro n hn hm
    rw [List.length_append, List.length_singleton] at hn
    rw [JRd.run_ok (ih n (by omega) hm)]
    simp only [JRd.run, JRd.step, (hexVal_iff c d).2 h2, bind, Except.bind]
    rw [if_neg (by omega), List.length_append, List.length_singleton]
    simp [Nat.sub_sub]

theorem run_digits_low {r : JRd} {k : Bool} {acc : Str} {hi : Nat} {s : Str} {v : Nat} (h : Digits s v) : ∀ n, s.length < n → r.mode = .lowUni k acc hi n 0 →
    r.run s = .ok { r with mode := .lowUni k acc hi (n - s.length) v } := by
  induction h with
  | nil => intro n hn hm; simp [JRd.run, ← hm]
  | @snoc s v c d h1 h2 ih =>
    intro n hn hm
    rw [List.length_append, List.length_singleton] at hn
    rw [JRd.run_ok (ih n (by omega) hm)]
    simp only [JRd.run, JRd.step, (hexVal_iff c d).2 h2, bind, Except.bind]
    rw [if_neg (by omega), List.length_append, List.length_singleton]
    simp [Nat.sub_sub]

theorem run_one (r : JRd) (c : Char) : r.run [c] = r.step c := by
  simp only [JRd.run, bind, Except.bind]
  cases r.step c <;> rfl

theorem run_unit {r : JRd} {k : Bool} {acc : Str} {s : Str} {v : Nat} (h : Unit s v) (hm : r.mode = .uni k acc 4 0) : r.run s = r.unit k acc v := by
  obtain ⟨h1, h2⟩ := h
  cases h1 with
  | nil => cases h2
  | @snoc s v c d h1 h3 =>
    rw [List.length_append, List.length_singleton] at h2
    rw [JRd.run_ok (run_digits h1 4 (by omega) hm), run_one]
    simp only [JRd.step, (hexVal_iff c d).2 h3]
    rw [if_pos (by omega)]
    simp only [JRd.unit, JRd.char]

theorem run_unit_low {r : JRd} {k : Bool} {acc : Str} {hi : Nat} {s : Str} {v : Nat} (h : Unit s v) (hm : r.mode = .lowUni k acc hi 4 0) : r.run s = r.pair k acc hi v := by
  obtain ⟨h1, h2⟩ := h
  cases h1 with
  | nil => cases h2
  | @snoc s v c d h1 h3 =>
    rw [List.length_append, List.length_singleton] at h2
    rw [JRd.run_ok (run_digits_low h1 4 (by omega) hm), run_one]
    simp only [JRd.step, (hexVal_iff c d).2 h3]
    rw [if_pos (by omega)]
    simp only [JRd.pair, JRd.char]

theorem run_ch {r : JRd} {k : Bool} {acc : Str} {u : Str} {c : Char} (h : Ch u c) (hm : r.mode = .str k acc) :
    r.run u = .ok { r with mode := .str k (acc ++ [c]) } := by
  cases h with
  | plain h1 h2 h3 =>
    rw [run_one]
    simp only [JRd.step, hm, h1, h2, if_false]
    rw [if_neg (by omega)]
  | @esc e c h =>
    have hs : r.step '\\' = .ok { r with mode := .esc k acc } := by simp [JRd.step, hm]
    rw [JRd.run_cons hs, run_one]
    simp only [escapes, List.mem_cons, List.not_mem_nil, or_false, Prod.mk.injEq] at h
    rcases h with ⟨rfl, rfl⟩ | ⟨rfl, rfl⟩ | ⟨rfl, rfl⟩ | ⟨rfl, rfl⟩ | ⟨rfl, rfl⟩ | ⟨rfl, rfl⟩ | ⟨rfl, rfl⟩ | ⟨rfl, rfl⟩ <;> rfl
  | @unit s c h =>
    have hs : r.step '\\' = .ok { r with mode := .esc k acc } := by simp [JRd.step, hm]
    have hu : JRd.step { r with mode := .esc k acc } 'u' = .ok { r with mode := .uni k acc 4 0 } := by simp [JRd.step]
    rw [JRd.run_cons hs, JRd.run_cons hu, run_unit h rfl]
    have hv := c.valid
    rw [JRd.unit, if_neg (by
      intro h
      rcases hv with hv | hv
      · have : c.toNat < 0xd800 := hv
        omega
      · have : 0xdfff < c.toNat := hv.1
        omega), JRd.char_ok _ _ _ c _ rfl]
  | @pair s t hi lo c h1 h2 a1 a2 b1 b2 hc =>
    have hs : r.step '\\' = .ok { r with mode := .esc k acc } := by simp [JRd.step, hm]
    have hu : JRd.step { r with mode := .esc k acc } 'u' = .ok { r with mode := .uni k acc 4 0 } := by simp [JRd.step]
    have h3 : JRd.run { r with mode := .uni k acc 4 0 } s = .ok { r with mode := .low k acc hi } := by
      rw [run_unit h1 rfl, JRd.unit, if_pos ⟨a1, a2⟩]
    have h4 : JRd.step { r with mode := .low k acc hi } '\\' = .ok { r with mode := .lowEsc k acc hi } := by simp [JRd.step]
    have h5 : JRd.step { r with mode := .lowEsc k acc hi } 'u' = .ok { r with mode := .lowUni k acc hi 4 0 } := by simp [JRd.step]
    rw [JRd.run_cons hs, JRd.run_cons hu, JRd.run_ok h3, JRd.run_cons h4, JRd.run_cons h5, run_unit_low h2 rfl, JRd.pair, if_pos ⟨b1, b2⟩,
      JRd.char_ok _ _ _ c _ hc.symm]

theorem run_chars {r : JRd} {k : Bool} {s t : Str} (h : Chars s t) : ∀ {acc : Str}, r.mode = .str k acc → r.run s = .ok { r with mode := .str k (acc ++ t) } := by
  induction h with
  | nil => intro acc hm; simp [JRd.run, ← hm]
  | @snoc s t u c h1 h2 ih =>
    intro acc hm
    rw [JRd.run_ok (ih hm), run_ch h2 rfl]
    simp

/-- a state before a value -/
def Ready (m : JMode) : Prop := m = .val ∨ m = .first

theorem Ready.skips {m : JMode} (h : Ready m) : JRd.Skips m := by
  rcases h with h | h
  · exact .inl h
  · exact .inr (.inl h)

theorem step_start {r : JRd} (h : Ready r.mode) {c : Char} (hs : jSpace c = false) (hc : c ≠ ']') : r.step c = r.start c := by
  rcases h with h | h <;> simp [JRd.step, h, hs, hc]

theorem mem_keysOf {ν : Type} {k : Str} : ∀ {l : List (Str × ν)}, k ∈ keysOf l ↔ ∃ p ∈ l, p.1 = k
  | [] => by simp [keysOf]
  | p :: l => by
    simp only [keysOf, List.mem_cons, List.mem_filter, mem_keysOf (l := l), decide_eq_true_eq, ne_eq]
    constructor
    · rintro (rfl | ⟨⟨q, hq, rfl⟩, _⟩)
      · exact ⟨p, .inl rfl, rfl⟩
      · exact ⟨q, .inr hq, rfl⟩
    · rintro ⟨q, rfl | hq, rfl⟩
      · exact .inl rfl
      · by_cases h : q.1 = p.1
        · exact .inl h
        · exact .inr ⟨⟨q, hq, rfl⟩, h⟩

theorem keysOf_nodup {ν : Type} : ∀ l : List (Str × ν), (keysOf l).Nodup
  | [] => List.nodup_nil
  | p :: l => by
    rw [keysOf, List.nodup_cons]
    exact ⟨by simp, (keysOf_nodup l).filter _⟩

theorem keysOf_snoc {ν : Type} (k : Str) (j : ν) : ∀ l : List (Str × ν), keysOf (l ++ [(k, j)]) = if k ∈ keysOf l then keysOf l else keysOf l ++ [k]
  | [] => rfl
  | p :: l => by
    rw [List.cons_append, keysOf, keysOf_snoc k j l, keysOf]
    by_cases h : k = p.1
    · subst h
      by_cases h' : p.1 ∈ keysOf l <;> simp [h', List.filter_append]
    · by_cases h' : k ∈ keysOf l <;> simp [h, h', List.filter_append]

theorem filterMap_same {α β : Type} {f g : α → Option β} : ∀ {l : List α}, (∀ i ∈ l, f i = g i) → l.filterMap f = l.filterMap g
  | [], _ => rfl
  | i :: l, h => by
    have ih := filterMap_same fun j hj => h j (List.mem_cons_of_mem _ hj)
    rw [List.filterMap_cons, List.filterMap_cons, h i (List.mem_cons_self ..), ih]

theorem set_filterMap {ν : Type} (k : Str) (j : ν) {f g : Str → Option (Str × ν)} (hg : ∀ i, g i = if i = k then some (k, j) else f i) :
    ∀ {ks : List Str}, ks.Nodup → (∀ i ∈ ks, ∃ v, f i = some (i, v)) →
    Dict.set (ks.filterMap f) k j = if k ∈ ks then ks.filterMap g else ks.filterMap f ++ [(k, j)]
  | [], _, _ => rfl
  | i :: ks, hn, hf => by
    rw [List.nodup_cons] at hn
    obtain ⟨v, hv⟩ := hf i (List.mem_cons_self ..)
    have ih := set_filterMap k j hg hn.2 fun i hi => hf i (List.mem_cons_of_mem _ hi)
    rw [List.filterMap_cons_some hv]
    unfold Dict.set
    by_cases h : i = k
    · subst h
      have e : ks.filterMap f = ks.filterMap g := by
        apply filterMap_same
        intro i' hi'
        rw [hg, if_neg (by rintro rfl; exact hn.1 hi')]
      rw [if_pos rfl, if_pos (List.mem_cons_self ..), List.filterMap_cons_some (by rw [hg, if_pos rfl]), e]
    · have hgi : g i = some (i, v) := by rw [hg, if_neg h, hv]
      rw [if_neg h, ih, List.filterMap_cons_some hgi]
      by_cases h' : k ∈ ks
      · rw [if_pos h', if_pos (List.mem_cons_of_mem _ h')]
      · rw [if_neg h', if_neg (by simp only [List.mem_cons, not_or]; exact ⟨fun e => h e.symm, h'⟩)]
        rfl

theorem dictOf_snoc {ν : Type} (l : List (Str × ν)) (k : Str) (j : ν) : dictOf (l ++ [(k, j)]) = Dict.set (dictOf l) k j := by
  have hg : ∀ i, ((l ++ [(k, j)]).reverse.find? fun p => p.1 = i) = if i = k then some (k, j) else l.reverse.find? fun p => p.1 = i := by
    intro i
    rw [List.reverse_append, List.reverse_singleton, List.singleton_append, List.find?_cons]
    by_cases h : i = k
    · subst h; simp
    · have : ¬ k = i := fun e => h e.symm
      simp [h, this]
  unfold dictOf
  rw [set_filterMap k j hg (keysOf_nodup l), keysOf_snoc]
  · by_cases h : k ∈ keysOf l
    · rw [if_pos h, if_pos h]
    · rw [if_neg h, if_neg h, List.filterMap_append]
      congr 1
      · apply filterMap_same
        intro i hi
        rw [hg, if_neg (by rintro rfl; exact h hi)]
      · rw [List.filterMap_cons_some (by rw [hg, if_pos rfl])]
        rfl
  · intro i hi
    obtain ⟨p, hp, rfl⟩ := mem_keysOf.1 hi
    cases hq : l.reverse.find? (fun q => q.1 = p.1) with
    | none =>
      have := List.find?_eq_none.1 hq p (List.mem_reverse.2 hp)
      simp at this
    | some q =>
      have := List.find?_some hq
      simp only [decide_eq_true_eq] at this
      exact ⟨q.2, by rw [← this]⟩

mutual
theorem run_value : ∀ {s : Str} {j : J}, Value s j → ∀ {r : JRd}, Ready r.mode → r.run s = .ok (r.attach j)
  | _, _, .null, r, hr => by
    have h1 : r.step 'n' = .ok { r with mode := .null (lit! "ull") } := by rw [step_start hr (by decide) (by decide)]; rfl
    rw [JRd.run_cons h1]
    rfl
  | _, _, .str h, r, hr => by
    have h1 : r.step '"' = .ok { r with mode := .str false [] } := by rw [step_start hr (by decide) (by decide)]; rfl
    rw [JRd.run_cons h1, JRd.run_ok (run_chars h rfl), run_one]
    rfl
  | _, _, .arr0 h, r, hr => by
    have h1 : r.step '[' = .ok { r with mode := .first, stack := .arr [] :: r.stack } := by rw [step_start hr (by decide) (by decide)]; rfl
    rw [JRd.run_cons h1, JRd.run_ok (JRd.run_space (.inr (.inl rfl)) (ws_space h)), run_one]
    rfl
  | _, _, .arr (l := l) h1 h2 h3 h4, r, hr => by
    have e1 : r.step '[' = .ok { r with mode := .first, stack := .arr [] :: r.stack } := by rw [step_start hr (by decide) (by decide)]; rfl
    obtain ⟨m, e2, e3⟩ := run_items h1 (r := { r with mode := .first, stack := .arr [] :: r.stack }) (st := r.stack) rfl rfl
    rw [JRd.run_cons e1, JRd.run_ok e3, JRd.run_ok (JRd.run_space e2.skips (ws_space h2)), JRd.run_ok (run_value h3 e2),
      JRd.run_ok (JRd.run_space (.inr (.inr (.inr (.inr (.inr rfl))))) (ws_space h4)), run_one]
    rfl
  | _, _, .obj0 h, r, hr => by
    have h1 : r.step '{' = .ok { r with mode := .key0, stack := .obj [] [] :: r.stack } := by rw [step_start hr (by decide) (by decide)]; rfl
    rw [JRd.run_cons h1, JRd.run_ok (JRd.run_space (.inr (.inr (.inl rfl))) (ws_space h)), run_one]
    rfl
  | _, _, .obj (l := l) (k := k) (j := j) h1 h2, r, hr => by
    have e1 : r.step '{' = .ok { r with mode := .key0, stack := .obj [] [] :: r.stack } := by rw [step_start hr (by decide) (by decide)]; rfl
    obtain ⟨m, k', e2, e3⟩ := run_members h1 (r := { r with mode := .key0, stack := .obj [] [] :: r.stack }) (st := r.stack) (k := []) rfl rfl
    rw [JRd.run_cons e1, JRd.run_ok e3, JRd.run_ok (run_member h2 (st := r.stack) e2 rfl), run_one, dictOf_snoc]
    rfl
theorem run_items : ∀ {p : Str} {l : List J}, Items p l → ∀ {r : JRd} {st : List JFrame}, r.mode = .first → r.stack = .arr [] :: st →
    ∃ m, Ready m ∧ r.run p = .ok { r with mode := m, stack := .arr l :: st }
  | _, _, .nil, r, st, hm, hs => ⟨.first, .inr rfl, by simp [JRd.run, ← hm, ← hs]⟩
  | _, _, .snoc h1 h2 h3 h4, r, st, hm, hs => by
    obtain ⟨m, e2, e3⟩ := run_items h1 hm hs
    refine ⟨.val, .inl rfl, ?_⟩
    rw [JRd.run_ok e3, JRd.run_ok (JRd.run_space e2.skips (ws_space h2)), JRd.run_ok (run_value h3 e2),
      JRd.run_ok (JRd.run_space (.inr (.inr (.inr (.inr (.inr rfl))))) (ws_space h4)), run_one]
    rfl
theorem run_members : ∀ {p : Str} {l : List (Str × J)}, Members p l → ∀ {r : JRd} {st : List JFrame} {k : Str}, r.mode = .key0 → r.stack = .obj [] k :: st →
    ∃ m k', (m = .key0 ∨ m = .key) ∧ r.run p = .ok { r with mode := m, stack := .obj (dictOf l) k' :: st }
  | _, _, .nil, r, st, k, hm, hs => ⟨.key0, k, .inl rfl, by simp [JRd.run, ← hm, dictOf, keysOf, ← hs]⟩
  | _, _, .snoc (k := k) h1 h2, r, st, _, hm, hs => by
    obtain ⟨m, k', e2, e3⟩ := run_members h1 hm hs
    refine ⟨.key, k, .inr rfl, ?_⟩
    rw [JRd.run_ok e3, JRd.run_ok (run_member h2 (st := st) e2 rfl), run_one, dictOf_snoc]
    rfl
theorem run_member : ∀ {s k : Str} {j : J}, Member s k j → ∀ {r : JRd} {st : List JFrame} {acc : List (Str × J)} {k' : Str}, (r.mode = .key0 ∨ r.mode = .key) →
    r.stack = .obj acc k' :: st → r.run s = .ok { r with mode := .after, stack := .obj (Dict.set acc k j) k :: st }
  | _, _, _, .mk (k := k) h1 h2 h3 h4 h5 h6, r, st, acc, k', hm, hs => by
    have e1 : JRd.Skips r.mode := by
      rcases hm with h | h
      · exact .inr (.inr (.inl h))
      · exact .inr (.inr (.inr (.inl h)))
    have e2 : r.step '"' = .ok { r with mode := .str true [] } := by
      rcases hm with h | h <;> simp [JRd.step, h, jSpace]
    have e3 : JRd.step { r with mode := .str true ([] ++ k) } '"' = .ok { r with mode := .colon, stack := .obj acc k :: st } := by
      simp [JRd.step, JRd.string, hs]
    have e4 : JRd.step { r with mode := .colon, stack := .obj acc k :: st } ':' = .ok { r with mode := .val, stack := .obj acc k :: st } := by
      simp [JRd.step, jSpace]
    rw [JRd.run_ok (JRd.run_space e1 (ws_space h1)), JRd.run_cons e2, JRd.run_ok (run_chars h2 rfl), JRd.run_cons e3,
      JRd.run_ok (JRd.run_space (.inr (.inr (.inr (.inr (.inl rfl))))) (ws_space h3)), JRd.run_cons e4, JRd.run_ok (JRd.run_space (.inl rfl) (ws_space h4)),
      JRd.run_ok (run_value h5 (.inl rfl)), JRd.run_space (.inr (.inr (.inr (.inr (.inr rfl))))) (ws_space h6)]
    rfl
end

theorem loads_text {s : Str} {j : J} (h : Text s j) : jsonLoads s = .ok j := by
  obtain ⟨a, v, b, rfl, h1, h2, h3⟩ := h
  unfold jsonLoads
  rw [JRd.run_ok (JRd.run_space (.inl rfl) (ws_space h1)), JRd.run_ok (run_value h2 (.inl rfl)),
    JRd.run_space (.inr (.inr (.inr (.inr (.inr rfl))))) (ws_space h3)]
  rfl

/-! ### What is read is in the grammar -/

/-- what has been read before the value that comes next, by the arrays and objects that are open -/
inductive Ctx : List JFrame → Str → Prop
  | top : Ctx [] []
  | arr {st : List JFrame} {u w p : Str} {l : List J} : Ctx st u → Ws w → Items p l → Ctx (.arr l :: st) (u ++ (w ++ ('[' :: p)))
  | obj {st : List JFrame} {u w p a t k b : Str} {l : List (Str × J)} : Ctx st u → Ws w → Members p l → Ws a → Chars t k → Ws b →
      Ctx (.obj (dictOf l) k :: st) (u ++ (w ++ ('{' :: (p ++ (a ++ ('"' :: (t ++ ('"' :: (b ++ [':'])))))))))

/-- the same before a key -/
inductive InObj : List JFrame → Str → Prop
  | mk {st : List JFrame} {u w p k : Str} {l : List (Str × J)} : Ctx st u → Ws w → Members p l → InObj (.obj (dictOf l) k :: st) (u ++ (w ++ ('{' :: p)))

/-- before a key, or before a value -/
def Before (k : Bool) (st : List JFrame) (u : Str) : Prop :=
  ∃ u0 w, (if k then InObj st u0 else Ctx st u0) ∧ Ws w ∧ u = u0 ++ w

/-- in a string -/
def InStr (k : Bool) (st : List JFrame) (acc u : Str) : Prop := ∃ u0 s, Before k st u0 ∧ Chars s acc ∧ u = u0 ++ ('"' :: s)

/-- after a value -/
def After (r : JRd) (u : Str) : Prop :=
  ∃ r0 : JRd, ∃ u0 a v b j, r0.root = none ∧ Ctx r0.stack u0 ∧ Ws a ∧ Value v j ∧ Ws b ∧ u = u0 ++ (a ++ (v ++ b)) ∧ r = r0.attach j

/-- what has been read, in each state -/
def Inv (r : JRd) (u : Str) : Prop :=
  match r.mode with
  | .val => r.root = none ∧ Before false r.stack u
  | .first => r.root = none ∧ ∃ st u0 w w', r.stack = .arr [] :: st ∧ Ctx st u0 ∧ Ws w ∧ Ws w' ∧ u = u0 ++ (w ++ ('[' :: w'))
  | .key0 => r.root = none ∧ ∃ st k u0 w w', r.stack = .obj [] k :: st ∧ Ctx st u0 ∧ Ws w ∧ Ws w' ∧ u = u0 ++ (w ++ ('{' :: w'))
  | .key => r.root = none ∧ Before true r.stack u
  | .colon => r.root = none ∧ ∃ st acc k u0 t b, r.stack = .obj acc k :: st ∧ Before true r.stack u0 ∧ Chars t k ∧ Ws b ∧ u = u0 ++ ('"' :: (t ++ ('"' :: b)))
  | .after => After r u
  | .null rest => r.root = none ∧ ∃ u0 pre, Before false r.stack u0 ∧ pre ++ rest = lit! "null" ∧ u = u0 ++ pre
  | .str k acc => r.root = none ∧ InStr k r.stack acc u
  | .esc k acc => r.root = none ∧ ∃ u', InStr k r.stack acc u' ∧ u = u' ++ ['\\']
  | .uni k acc n v => r.root = none ∧ ∃ u' h, InStr k r.stack acc u' ∧ Digits h v ∧ h.length + n = 4 ∧ 1 ≤ n ∧ u = u' ++ ('\\' :: 'u' :: h)
  | .low k acc hi => r.root = none ∧ ∃ u' h, InStr k r.stack acc u' ∧ Unit h hi ∧ 0xD800 ≤ hi ∧ hi < 0xDC00 ∧ u = u' ++ ('\\' :: 'u' :: h)
  | .lowEsc k acc hi => r.root = none ∧ ∃ u' h, InStr k r.stack acc u' ∧ Unit h hi ∧ 0xD800 ≤ hi ∧ hi < 0xDC00 ∧ u = u' ++ ('\\' :: 'u' :: (h ++ ['\\']))
  | .lowUni k acc hi n v => r.root = none ∧ ∃ u' h h', InStr k r.stack acc u' ∧ Unit h hi ∧ 0xD800 ≤ hi ∧ hi < 0xDC00 ∧ Digits h' v ∧ h'.length + n = 4 ∧ 1 ≤ n ∧
      u = u' ++ ('\\' :: 'u' :: (h ++ '\\' :: 'u' :: h'))

theorem InStr.snoc {k : Bool} {st : List JFrame} {acc u s : Str} {c : Char} (h : InStr k st acc u) (hc : Ch s c) : InStr k st (acc ++ [c]) (u ++ s) := by
  obtain ⟨u0, t, h1, h2, rfl⟩ := h
  exact ⟨u0, t ++ s, h1, h2.snoc hc, by simp⟩

theorem attach_mode (r : JRd) (j : J) : (r.attach j).mode = .after := by
  unfold JRd.attach
  split <;> rfl

/-- the mode and the root do not matter when a value is attached -/
theorem inv_attach {r : JRd} {u0 a v b : Str} {j : J} (hr : r.root = none) (hc : Ctx r.stack u0) (ha : Ws a) (hv : Value v j) (hb : Ws b) :
    Inv (r.attach j) (u0 ++ (a ++ (v ++ b))) := by
  unfold Inv
  rw [attach_mode]
  exact ⟨r, u0, a, v, b, j, hr, hc, ha, hv, hb, rfl, rfl⟩

theorem before_attach {r : JRd} {u v : Str} {j : J} (hr : r.root = none) (hc : Before false r.stack u) (hv : Value v j) : Inv (r.attach j) (u ++ v) := by
  obtain ⟨u0, w, h1, h2, rfl⟩ := hc
  have := inv_attach hr h1 h2 hv ws_nil
  simpa using this

theorem inv_start {r r' : JRd} {u : Str} {c : Char} (hr : r.root = none) (hb : Before false r.stack u) (h : r.start c = .ok r') : Inv r' (u ++ [c]) := by
  unfold JRd.start at h
  split at h
  · next hc =>
    cases h; subst hc
    exact ⟨hr, u, [], hb, .nil, rfl⟩
  split at h
  · next hc =>
    cases h; subst hc
    obtain ⟨u0, w, h1, h2, rfl⟩ := hb
    exact ⟨hr, r.stack, u0, w, [], rfl, h1, h2, ws_nil, by simp⟩
  split at h
  · next hc =>
    cases h; subst hc
    obtain ⟨u0, w, h1, h2, rfl⟩ := hb
    exact ⟨hr, r.stack, [], u0, w, [], rfl, h1, h2, ws_nil, by simp⟩
  split at h
  · next hc =>
    cases h; subst hc
    exact ⟨hr, u, ['n'], hb, rfl, rfl⟩
  · cases h

theorem inv_char {r r' : JRd} {k : Bool} {acc u s : Str} {n : Nat} (hr : r.root = none) (hs : InStr k r.stack acc u) (hc : ∀ c : Char, c.toNat = n → Ch s c)
    (h : r.char k acc n = .ok r') : Inv r' (u ++ s) := by
  unfold JRd.char at h
  split at h
  · next hn =>
    cases h
    exact ⟨hr, hs.snoc (hc _ rfl)⟩
  · cases h

theorem inv_string {r r' : JRd} {k : Bool} {acc u : Str} (hr : r.root = none) (hs : InStr k r.stack acc u) (h : r.string k acc = .ok r') : Inv r' (u ++ ['"']) := by
  obtain ⟨u0, s, h1, h2, rfl⟩ := hs
  unfold JRd.string at h
  cases k with
  | true =>
    rw [if_pos rfl] at h
    split at h
    · next acc' k' fs e =>
      cases h
      refine ⟨hr, fs, acc', acc, u0, s, [], rfl, ?_, h2, ws_nil, by simp⟩
      obtain ⟨u1, w, h3, h4, rfl⟩ := h1
      refine ⟨u1, w, ?_, h4, rfl⟩
      rw [e] at h3
      rw [if_pos rfl] at h3 ⊢
      cases h3 with
      | mk a1 a2 a3 => exact .mk a1 a2 a3
    · cases h
  | false =>
    rw [if_neg (by simp)] at h
    cases h
    have := before_attach hr h1 (.str h2)
    simpa using this

theorem inv_close {r r' : JRd} {u : Str} {c : Char} (hi : After r u) (h : r.close c = .ok r') : Inv r' (u ++ [c]) := by
  obtain ⟨⟨m, st, rt⟩, u0, a, v, b, j, hr, hc, ha, hv, hb, rfl, rfl⟩ := hi
  cases hr
  cases hc with
  | top => cases h
  | @arr st u1 w p l h1 h2 h3 =>
    unfold JRd.close at h
    dsimp only [JRd.attach] at h
    split at h
    · next e =>
      cases h; subst e
      have := inv_attach (r := ⟨.after, st, none⟩) rfl h1 h2 (.arr h3 ha hv hb) ws_nil
      show Inv (JRd.attach ⟨.after, st, none⟩ _) _
      simpa using this
    · cases h
  | @obj st u1 w p a' t k b' l h1 h2 h3 h4 h5 h6 =>
    unfold JRd.close at h
    dsimp only [JRd.attach] at h
    split at h
    · next e =>
      cases h; subst e
      have := inv_attach (r := ⟨.after, st, none⟩) rfl h1 h2 (.obj h3 (.mk h4 h5 h6 ha hv hb)) ws_nil
      rw [dictOf_snoc] at this
      show Inv (JRd.attach ⟨.after, st, none⟩ _) _
      simpa using this
    · cases h

theorem inv_comma {r r' : JRd} {u : Str} (hi : After r u) (h : r.step ',' = .ok r') : Inv r' (u ++ [',']) := by
  obtain ⟨⟨m, st, rt⟩, u0, a, v, b, j, hr, hc, ha, hv, hb, rfl, rfl⟩ := hi
  cases hr
  cases hc with
  | top => cases h
  | @arr st u1 w p l h1 h2 h3 =>
    cases h
    exact ⟨rfl, _, [], .arr h1 h2 (.snoc h3 ha hv hb), ws_nil, by simp⟩
  | @obj st u1 w p a' t k b' l h1 h2 h3 h4 h5 h6 =>
    cases h
    have := InObj.mk (k := k) h1 h2 (.snoc h3 (.mk h4 h5 h6 ha hv hb))
    rw [dictOf_snoc] at this
    exact ⟨rfl, _, [], this, ws_nil, by simp⟩

theorem before_space {k : Bool} {st : List JFrame} {u : Str} {c : Char} (h : Before k st u) (hc : jSpace c = true) : Before k st (u ++ [c]) := by
  obtain ⟨u0, w, h1, h2, rfl⟩ := h
  exact ⟨u0, w ++ [c], h1, ws_snoc h2 hc, by simp⟩

theorem inv_step {r r' : JRd} {u : Str} {c : Char} (hi : Inv r u) (h : r.step c = .ok r') : Inv r' (u ++ [c]) := by
  have h0 := h
  obtain ⟨m, st, rt⟩ := r
  cases m with
  | val =>
    obtain ⟨hr, hb⟩ := hi
    dsimp only [JRd.step] at h
    split at h
    · next hc => cases h; exact ⟨hr, before_space hb hc⟩
    · exact inv_start hr hb h
  | first =>
    obtain ⟨hr, st', u0, w, w', rfl, h1, h2, h3, rfl⟩ := hi
    cases hr
    dsimp only [JRd.step] at h
    split at h
    · next hc => cases h; exact ⟨rfl, st', u0, w, w' ++ [c], rfl, h1, h2, ws_snoc h3 hc, by simp⟩
    split at h
    · next hc =>
      subst hc
      cases h
      have := inv_attach (r := ⟨.first, st', none⟩) rfl h1 h2 (.arr0 h3) ws_nil
      simpa using this
    · have hb : Before false (.arr [] :: st') (u0 ++ (w ++ ('[' :: w'))) := ⟨_, w', .arr h1 h2 .nil, h3, by simp⟩
      exact inv_start (r := ⟨.first, .arr [] :: st', none⟩) rfl hb h
  | key0 =>
    obtain ⟨hr, st', k, u0, w, w', rfl, h1, h2, h3, rfl⟩ := hi
    cases hr
    dsimp only [JRd.step] at h
    split at h
    · next hc => cases h; exact ⟨rfl, st', k, u0, w, w' ++ [c], rfl, h1, h2, ws_snoc h3 hc, by simp⟩
    split at h
    · next hc =>
      subst hc
      cases h
      have := inv_attach (r := ⟨.key0, st', none⟩) rfl h1 h2 (.obj0 h3) ws_nil
      simpa using this
    split at h
    · next hc =>
      subst hc
      cases h
      exact ⟨rfl, _, [], ⟨_, w', InObj.mk (l := []) h1 h2 .nil, h3, rfl⟩, .nil, by simp⟩
    · cases h
  | key =>
    obtain ⟨hr, hb⟩ := hi
    dsimp only [JRd.step] at h
    split at h
    · next hc => cases h; exact ⟨hr, before_space hb hc⟩
    split at h
    · next hc =>
      subst hc
      cases h
      exact ⟨hr, _, [], hb, .nil, rfl⟩
    · cases h
  | colon =>
    obtain ⟨hr, st', acc, k, u0, t, b, rfl, h1, h2, h3, rfl⟩ := hi
    dsimp only [JRd.step] at h
    split at h
    · next hc => cases h; exact ⟨hr, st', acc, k, u0, t, b ++ [c], rfl, h1, h2, ws_snoc h3 hc, by simp⟩
    split at h
    · next hc =>
      subst hc
      cases h
      obtain ⟨u1, w, h4, h5, rfl⟩ := h1
      rw [if_pos rfl] at h4
      cases h4 with
      | mk a1 a2 a3 => exact ⟨hr, _, [], .obj a1 a2 a3 h5 h2 h3, ws_nil, by simp⟩
    · cases h
  | after =>
    have hi' : After ⟨.after, st, rt⟩ u := hi
    dsimp only [JRd.step] at h
    split at h
    · next hc =>
      cases h
      obtain ⟨r0, u0, a, v, b, j, hr, h1, ha, hv, hb, rfl, e⟩ := hi'
      exact ⟨r0, u0, a, v, b ++ [c], j, hr, h1, ha, hv, ws_snoc hb hc, by simp, e⟩
    split at h
    · next hc => subst hc; exact inv_comma hi' h0
    · exact inv_close hi' h
  | null rest =>
    obtain ⟨hr, u0, pre, h1, h2, rfl⟩ := hi
    dsimp only [JRd.step] at h
    split at h
    · cases h
    · next d =>
      split at h
      · next hc =>
        subst hc
        cases h
        have := before_attach hr h1 .null
        rw [← h2] at this
        simpa using this
      · cases h
    · next d ds _ =>
      split at h
      · next hc =>
        subst hc
        cases h
        exact ⟨hr, u0, pre ++ [c], h1, by simpa using h2, by simp⟩
      · cases h
  | str k acc =>
    obtain ⟨hr, hs⟩ := hi
    dsimp only [JRd.step] at h
    split at h
    · next hc => subst hc; exact inv_string hr hs h
    split at h
    · next hc => subst hc; cases h; exact ⟨hr, u, hs, rfl⟩
    split at h
    · cases h
    · next h1 h2 h3 =>
      cases h
      exact ⟨hr, hs.snoc (.plain h1 h2 (by omega))⟩
  | esc k acc =>
    obtain ⟨hr, u', hs, rfl⟩ := hi
    have key : ∀ {d : Char}, (c, d) ∈ escapes → Inv ⟨.str k (acc ++ [d]), st, rt⟩ (u' ++ ['\\'] ++ [c]) := by
      intro d hd
      have := hs.snoc (.esc hd)
      exact ⟨hr, by simpa using this⟩
    dsimp only [JRd.step] at h
    split at h
    · next hc => subst hc; cases h; exact ⟨hr, u', [], hs, .nil, rfl, by omega, by simp⟩
    split at h
    · next hc =>
      cases h
      exact key (by rcases hc with rfl | rfl | rfl <;> decide)
    split at h
    · next hc => cases h; exact key (by subst hc; decide)
    split at h
    · next hc => cases h; exact key (by subst hc; decide)
    split at h
    · next hc => cases h; exact key (by subst hc; decide)
    split at h
    · next hc => cases h; exact key (by subst hc; decide)
    split at h
    · next hc => cases h; exact key (by subst hc; decide)
    · cases h
  | uni k acc n v =>
    obtain ⟨hr, u', hx, hs, hd, hn, hp, rfl⟩ := hi
    dsimp only [JRd.step] at h
    split at h
    · cases h
    · next d e =>
      have hd' := hd.snoc ((hexVal_iff c d).1 e)
      have hl : (hx ++ [c]).length = hx.length + 1 := by simp
      have hu : u' ++ ('\\' :: 'u' :: hx) ++ [c] = u' ++ ('\\' :: 'u' :: (hx ++ [c])) := by simp
      rw [hu]
      split at h
      · next hn1 =>
        unfold JRd.unit at h
        split at h
        · next hh =>
          cases h
          exact ⟨hr, u', _, hs, ⟨hd', by omega⟩, hh.1, hh.2, rfl⟩
        · exact inv_char hr hs (fun c' hc' => .unit ⟨by rw [hc']; exact hd', by omega⟩) h
      · next hn1 =>
        cases h
        exact ⟨hr, u', _, hs, hd', by omega, by omega, rfl⟩
  | low k acc hi' =>
    obtain ⟨hr, u', hx, hs, hu, a1, a2, rfl⟩ := hi
    dsimp only [JRd.step] at h
    split at h
    · next hc => subst hc; cases h; exact ⟨hr, u', hx, hs, hu, a1, a2, by simp⟩
    · cases h
  | lowEsc k acc hi' =>
    obtain ⟨hr, u', hx, hs, hu, a1, a2, rfl⟩ := hi
    dsimp only [JRd.step] at h
    split at h
    · next hc => subst hc; cases h; exact ⟨hr, u', hx, [], hs, hu, a1, a2, .nil, rfl, by omega, by simp⟩
    · cases h
  | lowUni k acc hi' n v =>
    obtain ⟨hr, u', hx, hy, hs, hu, a1, a2, hd, hn, hp, rfl⟩ := hi
    dsimp only [JRd.step] at h
    split at h
    · cases h
    · next d e =>
      have hd' := hd.snoc ((hexVal_iff c d).1 e)
      have hl : (hy ++ [c]).length = hy.length + 1 := by simp
      have hu' : u' ++ ('\\' :: 'u' :: (hx ++ '\\' :: 'u' :: hy)) ++ [c] = u' ++ ('\\' :: 'u' :: (hx ++ '\\' :: 'u' :: (hy ++ [c]))) := by simp
      rw [hu']
      split at h
      · next hn1 =>
        unfold JRd.pair at h
        split at h
        · next hh => exact inv_char hr hs (fun c' hc' => .pair hu ⟨hd', by omega⟩ a1 a2 hh.1 hh.2 hc') h
        · cases h
      · next hn1 =>
        cases h
        exact ⟨hr, u', hx, _, hs, hu, a1, a2, hd', by omega, by omega, rfl⟩

theorem inv_run : ∀ {s : Str} {r r' : JRd} {u : Str}, Inv r u → r.run s = .ok r' → Inv r' (u ++ s)
  | [], r, r', u, hi, h => by cases h; simpa using hi
  | c :: s, r, r', u, hi, h => by
    simp only [JRd.run, bind, Except.bind] at h
    split at h
    · cases h
    · next r1 e =>
      have := inv_run (inv_step hi e) h
      simpa using this

theorem text_loads {s : Str} {j : J} (h : jsonLoads s = .ok j) : Text s j := by
  unfold jsonLoads at h
  simp only [bind, Except.bind] at h
  split at h
  · cases h
  · next r e =>
    have hi : Inv r ([] ++ s) := inv_run (r := {}) ⟨rfl, [], [], .top, ws_nil, rfl⟩ e
    obtain ⟨m, st, rt⟩ := r
    dsimp only at h
    split at h
    · cases h
      obtain ⟨⟨m0, st0, rt0⟩, u0, a, v, b, j', _, hc, ha, hv, hb, e1, e2⟩ := hi
      cases hc with
      | top =>
        cases e2
        exact ⟨a, v, b, by simpa using e1, ha, hv, hb⟩
      | arr => cases e2
      | obj => cases e2
    · cases h

/-! ### C158 -/

/-- **C158**: `json.loads` reads exactly the texts of the grammar, each as the value it says -/
theorem C158_exact (s : Str) (j : J) : jsonLoads s = .ok j ↔ Text s j := ⟨text_loads, loads_text⟩

theorem step_error {r : JRd} {c : Char} {e : PyErr} (h : r.step c = .error e) : e = .valueError := by
  unfold JRd.step JRd.string JRd.unit JRd.pair JRd.close JRd.start JRd.char at h
  repeat' split at h
  all_goals first | (cases h; rfl) | cases h

theorem run_error : ∀ {s : Str} {r : JRd} {e : PyErr}, r.run s = .error e → e = .valueError
  | [], _, _, h => by cases h
  | c :: s, r, e, h => by
    simp only [JRd.run, bind, Except.bind] at h
    split at h
    · next e' => cases h; exact step_error e'
    · exact run_error h

/-- **C158**: the others are a ValueError -/
theorem C158_error (s : Str) : jsonLoads s = .error .valueError ↔ ∀ j, ¬ Text s j := by
  constructor
  · intro h j hj
    rw [loads_text hj] at h
    cases h
  · intro h
    cases e : jsonLoads s with
    | ok j => exact absurd (text_loads e) (h j)
    | error x =>
      unfold jsonLoads at e
      simp only [bind, Except.bind] at e
      split at e
      · next e' => cases e; rw [run_error e']
      · split at e <;> cases e
        rfl

/-- **C158**: a text says one value at most -/
theorem C158_one {s : Str} {j j' : J} (h : Text s j) (h' : Text s j') : j = j' := by
  have := (loads_text h).symm.trans (loads_text h')
  cases this
  rfl

/-- **C158**: what is written is in the grammar, and says the value, with each indentation -/
theorem C158_written (ind : Option Int) {j : J} (hj : JOK j) : Text (jsonDumps ind j) j := by
  apply text_loads
  exact C91_layer ind j hj

/-- a text with white space, an escape, a pair and a key twice -/
example : Text (lit! " { \"a\" : [null , \"\\n\\u00E4\\uD83D\\uDE00\"],\"b\":{},\"a\":\"/\"}\n") (.obj [(lit! "a", .str (lit! "/")), (lit! "b", .obj [])]) :=
  (C158_exact _ _).1 (by rfl)

example : Text (lit! "[\"\\u00E4\\uD83D\\uDE00\"]") (.arr [.str [Char.ofNat 0xE4, Char.ofNat 0x1F600]]) := (C158_exact _ _).1 (by rfl)

/-- texts that say nothing: a comma too many, the wrong bracket, no comma, a character that must be escaped, half a pair, two values, nothing -/
example : ∀ s ∈ [(lit! "[null,]" : Str), lit! "{\"a\":null]", lit! "[null null]", lit! "\"\n\"", lit! "\"\\uD83D\"", lit! "null null", lit! " ", lit! "{\"a\",null}"],
    ∀ j, ¬ Text s j := by
  intro s hs j h
  have h := loads_text h
  simp only [List.mem_cons, List.not_mem_nil, or_false] at hs
  rcases hs with rfl | rfl | rfl | rfl | rfl | rfl | rfl | rfl <;> cases h

section
variable [Uni]
/-- **C158**: the texts a corpus can be read from, and what is read: a text of the grammar saying a value that says the corpus -/
theorem C158_corpus (s : Str) (x : Obj) : loadsJson s = .ok x ↔ ∃ j, Text s j ∧ Says .corpus noScope j x ∧ x.Valid := by
  rw [C144_text]
  simp only [C158_exact]

/-- **C158**: what says a corpus in another text of the grammar (other white space, other escapes, other members with the key before) is the same corpus -/
theorem C158_alike {s t : Str} {j : J} (hs : Text s j) (ht : Text t j) : loadsJson s = loadsJson t := by
  unfold loadsJson
  rw [loads_text hs, loads_text ht]

/-- **C158**: a text outside the grammar is a ValueError, and no others are because of the grammar -/
theorem C158_never {s : Str} (h : ∀ j, ¬ Text s j) : loadsJson s = .error .valueError := by
  unfold loadsJson
  rw [(C158_error s).2 h]
  rfl
end

section
attribute [local instance] asciiUni

/-- a corpus with an IGT, written by hand -/
example : ∃ x, loadsJson (lit! "{ \"igts\" : [ {\"id\":\"\\u0069\", \"tiers\":[]} ] }") = .ok x ∧ ∃ j, Text (lit! "{ \"igts\" : [ {\"id\":\"\\u0069\", \"tiers\":[]} ] }") j := by
  have h : (loadsJson (lit! "{ \"igts\" : [ {\"id\":\"\\u0069\", \"tiers\":[]} ] }")).isOk = true := by decide +kernel
  cases e : loadsJson (lit! "{ \"igts\" : [ {\"id\":\"\\u0069\", \"tiers\":[]} ] }") with
  | error _ => rw [e] at h; cases h
  | ok x =>
    obtain ⟨j, hj, _⟩ := (C158_corpus _ x).1 e
    exact ⟨x, rfl, j, hj⟩
end

end Xigt.Js
