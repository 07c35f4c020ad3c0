import Verif.Json.Text
import Verif.Json.Props
/-
C91: JSON text written with any indentation reads back as the value written; with C38, a corpus written
as JSON text reads back as an equal corpus.
-/
set_option linter.unusedSectionVars false

namespace Xigt

/-! ### Spec: a JSON value whose objects have no key twice -/

inductive JOK : J → Prop
  | null : JOK .null
  | str (s) : JOK (.str s)
  | arr {l} : (∀ x ∈ l, JOK x) → JOK (.arr l)
  | obj {d : List (Str × J)} : (d.map (·.1)).Nodup → (∀ p ∈ d, JOK p.2) → JOK (.obj d)

theorem J.ind {P : J → Prop} (hn : P .null) (hs : ∀ s, P (.str s)) (ha : ∀ l, (∀ x ∈ l, P x) → P (.arr l))
    (ho : ∀ d, (∀ p ∈ d, P p.2) → P (.obj d)) : ∀ j, P j := by
  intro j
  exact J.rec (motive_1 := P) (motive_2 := fun l => ∀ y ∈ l, P y) (motive_3 := fun l => ∀ y ∈ l, P y.2) (motive_4 := fun p => P p.2)
    hn hs ha ho (by intro y hy; cases hy) (fun a l h1 h2 y hy => by
      rcases List.mem_cons.1 hy with rfl | hy
      · exact h1
      · exact h2 y hy)
    (by intro y hy; cases hy) (fun a l h1 h2 y hy => by
      rcases List.mem_cons.1 hy with rfl | hy
      · exact h1
      · exact h2 y hy) (fun _ _ h => h) j

namespace JRd

theorem run_append (r : JRd) (a b : Str) : r.run (a ++ b) = (r.run a >>= fun r => r.run b) := by
  induction a generalizing r with
  | nil => rfl
  | cons c cs ih =>
    simp only [List.cons_append, run, bind, Except.bind]
    cases r.step c with
    | error e => rfl
    | ok r' => exact ih r'

theorem run_ok {r r' : JRd} {a b : Str} (h : r.run a = .ok r') : r.run (a ++ b) = r'.run b := by
  rw [run_append, h]; rfl

theorem run_cons {r r' : JRd} {c : Char} {cs : Str} (h : r.step c = .ok r') : r.run (c :: cs) = r'.run cs := by
  simp only [run, h, bind, Except.bind]

/-- a mode in which white space is skipped -/
def Skips (m : JMode) : Prop := m = .val ∨ m = .first ∨ m = .key0 ∨ m = .key ∨ m = .colon ∨ m = .after

theorem run_space {r : JRd} (hm : Skips r.mode) : ∀ {s : Str}, (∀ c ∈ s, jSpace c = true) → r.run s = .ok r := by
  intro s
  induction s with
  | nil => intro _; rfl
  | cons c cs ih =>
    intro h
    have hc := h c (by simp)
    rw [run_cons (r' := r)]
    · exact ih fun x hx => h x (by simp [hx])
    · rcases hm with h | h | h | h | h | h <;> simp [step, h, hc]

end JRd

theorem newlineJ_space (ind : Option Int) (l : Nat) : ∀ c ∈ newlineJ ind l, jSpace c = true := by
  intro c hc
  cases ind with
  | none => simp [newlineJ] at hc
  | some i =>
    simp only [newlineJ, List.mem_cons, List.mem_replicate] at hc
    rcases hc with rfl | ⟨_, rfl⟩ <;> decide

theorem hexVal_hexDigit {n : Nat} (h : n < 16) : hexVal (hexDigit n) = some n := by
  have : ∀ m : Fin 16, hexVal (hexDigit m.1) = some m.1 := by decide
  exact this ⟨n, h⟩

theorem hex4_value (n : Nat) (h : n < 65536) :
    (((0 * 16 + n / 4096 % 16) * 16 + n / 256 % 16) * 16 + n / 16 % 16) * 16 + n % 16 = n := by omega

namespace JRd

theorem run_uni (r : JRd) (k : Bool) (acc : Str) (n : Nat) (h : n < 65536) (hm : r.mode = .uni k acc 4 0) :
    r.run (hex4 n) = r.unit k acc n := by
  have e := hex4_value n h
  simp only [hex4, run, step, hm, hexVal_hexDigit (Nat.mod_lt _ (show 16 > 0 by decide)), bind, Except.bind, Nat.le_refl,
    if_true, show ¬ (4 : Nat) ≤ 1 by decide, show ¬ (4 - 1 : Nat) ≤ 1 by decide, show ¬ (4 - 1 - 1 : Nat) ≤ 1 by decide,
    show (4 - 1 - 1 - 1 : Nat) ≤ 1 by decide, if_false, e]
  simp only [unit, char]
  by_cases h1 : 55296 ≤ n ∧ n < 56320
  · simp [h1]
  · by_cases h2 : n.isValidChar <;> simp [h1, h2]

theorem run_lowUni (r : JRd) (k : Bool) (acc : Str) (hi n : Nat) (h : n < 65536) (hm : r.mode = .lowUni k acc hi 4 0) :
    r.run (hex4 n) = r.pair k acc hi n := by
  have e := hex4_value n h
  simp only [hex4, run, step, hm, hexVal_hexDigit (Nat.mod_lt _ (show 16 > 0 by decide)), bind, Except.bind, Nat.le_refl,
    if_true, show ¬ (4 : Nat) ≤ 1 by decide, show ¬ (4 - 1 : Nat) ≤ 1 by decide, show ¬ (4 - 1 - 1 : Nat) ≤ 1 by decide,
    show (4 - 1 - 1 - 1 : Nat) ≤ 1 by decide, if_false, e]
  simp only [pair, char]
  by_cases h1 : 56320 ≤ n ∧ n < 57344
  · by_cases h2 : (65536 + (hi - 55296) * 1024 + (n - 56320)).isValidChar <;> simp [h1, h2]
  · simp [h1]

end JRd

theorem char_range (c : Char) : c.toNat.isValidChar := c.valid

theorem ofNatAux_toNat (c : Char) (h : c.toNat.isValidChar) : Char.ofNatAux c.toNat h = c := by
  apply Char.ext
  apply UInt32.toNat_inj.1
  rfl

namespace JRd

theorem char_ok (r : JRd) (k : Bool) (acc : Str) (c : Char) (n : Nat) (h : n = c.toNat) :
    r.char k acc n = .ok { r with mode := .str k (acc ++ [c]) } := by
  subst h
  simp only [char, char_range c, dif_pos, ofNatAux_toNat]

theorem run_esc (r : JRd) (k : Bool) (acc : Str) (c : Char) (hm : r.mode = .str k acc) :
    r.run (escJ c) = .ok { r with mode := .str k (acc ++ [c]) } := by
  unfold escJ
  split
  · next h => subst h; simp [run, step, hm, bind, Except.bind]
  split
  · next h => subst h; simp [run, step, hm, bind, Except.bind]
  split
  · next h => subst h; simp [run, step, hm, bind, Except.bind]
  split
  · next h => subst h; simp [run, step, hm, bind, Except.bind]
  split
  · next h => subst h; simp [run, step, hm, bind, Except.bind]
  split
  · next h => simp [run, step, hm, bind, Except.bind, char_ok _ k acc c 12 h.symm]
  split
  · next h => simp [run, step, hm, bind, Except.bind, char_ok _ k acc c 8 h.symm]
  split
  · next h1 h2 _ _ _ _ _ h =>
    simp [run, step, hm, bind, Except.bind, h1, h2, show ¬ c.toNat < 32 by omega]
  have hv := char_range c
  split
  · next h =>
    rw [run_cons (r' := { r with mode := .esc k acc }) (by simp [step, hm]),
      run_cons (r' := { r with mode := .uni k acc 4 0 }) (by simp [step]), run_uni _ k acc _ h rfl, unit, if_neg, char_ok _ k acc c _ rfl]
    intro hh
    simp only [Nat.isValidChar] at hv
    omega
  · next h =>
    have hlt : c.toNat < 1114112 := by simp only [Nat.isValidChar] at hv; omega
    rw [run_cons (r' := { r with mode := .esc k acc }) (by simp [step, hm]),
      run_cons (r' := { r with mode := .uni k acc 4 0 }) (by simp [step]),
      run_ok (r' := { r with mode := .low k acc (55296 + (c.toNat - 65536) / 1024) })
        (by rw [run_uni _ k acc _ (by omega) rfl, unit, if_pos (by omega)]),
      run_cons (r' := { r with mode := .lowEsc k acc (55296 + (c.toNat - 65536) / 1024) }) (by simp [step]),
      run_cons (r' := { r with mode := .lowUni k acc (55296 + (c.toNat - 65536) / 1024) 4 0 }) (by simp [step]),
      run_lowUni _ k acc _ _ (by omega) rfl, pair, if_pos (by omega), char_ok _ k acc c _ (by omega)]

theorem run_chars (k : Bool) : ∀ (s : Str) (r : JRd) (acc : Str), r.mode = .str k acc →
    r.run (s.flatMap escJ) = .ok { r with mode := .str k (acc ++ s) } := by
  intro s
  induction s with
  | nil => intro r acc h; rw [List.append_nil, ← h]; rfl
  | cons c cs ih =>
    intro r acc h
    rw [List.flatMap_cons, run_ok (run_esc r k acc c h), ih _ (acc ++ [c]) rfl]
    simp [List.append_assoc]

/-- a value begins with a character that is no white space and no bracket -/
theorem run_start {r : JRd} {c : Char} (hm : r.mode = .val ∨ r.mode = .first) (h1 : jSpace c = false) (h2 : c ≠ ']') :
    r.step c = r.start c := by
  rcases hm with hm | hm <;> simp [step, hm, h1, h2]

theorem run_string {r : JRd} (s : Str) (hm : r.mode = .val ∨ r.mode = .first) : r.run (quoteJ s) = .ok (r.attach (.str s)) := by
  rw [quoteJ, run_cons (r' := { r with mode := .str false [] }) (by rw [run_start hm (by decide) (by decide)]; simp [start]),
    run_ok (run_chars false s _ [] rfl), List.nil_append, run_cons (r' := r.attach (.str s))]
  · rfl
  · simp only [step, if_true, string]
    simp only [attach]
    rcases r with ⟨m, st, ro⟩
    cases st with
    | nil => rfl
    | cons f fs => cases f <;> rfl

theorem run_key {r : JRd} {acc : List (Str × J)} {k0 : Str} {fs : List JFrame} (s : Str) (hm : r.mode = .key0 ∨ r.mode = .key)
    (hs : r.stack = .obj acc k0 :: fs) : r.run (quoteJ s) = .ok { r with mode := .colon, stack := .obj acc s :: fs } := by
  rw [quoteJ, run_cons (r' := { r with mode := .str true [] }) (by rcases hm with hm | hm <;> simp [step, hm, jSpace]),
    run_ok (run_chars true s _ [] rfl), List.nil_append, run_cons (r' := { r with mode := .colon, stack := .obj acc s :: fs })]
  · rfl
  · simp only [step, if_true, string, hs]

theorem run_newline {r : JRd} (hm : Skips r.mode) (ind : Option Int) (l : Nat) (s : Str) : r.run (newlineJ ind l ++ s) = r.run s :=
  run_ok (run_space hm (newlineJ_space ind l))

theorem run_sep_arr {r : JRd} {acc : List J} {fs : List JFrame} (hm : r.mode = .after) (hs : r.stack = .arr acc :: fs)
    (ind : Option Int) (l : Nat) (s : Str) : r.run (sepJ ind l ++ s) = ({ r with mode := .val } : JRd).run s := by
  have hstep : r.step ',' = .ok { r with mode := .val } := by simp [step, hm, hs, jSpace]
  cases ind with
  | none =>
    show r.run (',' :: ' ' :: s) = _
    rw [run_cons hstep, run_cons (r' := { r with mode := .val }) (by simp [step, jSpace])]
  | some i =>
    simp only [sepJ, List.cons_append]
    rw [run_cons hstep, run_newline (.inl rfl)]

theorem run_sep_obj {r : JRd} {acc : List (Str × J)} {k : Str} {fs : List JFrame} (hm : r.mode = .after)
    (hs : r.stack = .obj acc k :: fs) (ind : Option Int) (l : Nat) (s : Str) :
    r.run (sepJ ind l ++ s) = ({ r with mode := .key } : JRd).run s := by
  have hstep : r.step ',' = .ok { r with mode := .key } := by simp [step, hm, hs, jSpace]
  cases ind with
  | none =>
    show r.run (',' :: ' ' :: s) = _
    rw [run_cons hstep, run_cons (r' := { r with mode := .key }) (by simp [step, jSpace])]
  | some i =>
    simp only [sepJ, List.cons_append]
    rw [run_cons hstep, run_newline (.inr (.inr (.inr (.inl rfl))))]

theorem run_colon {r : JRd} (hm : r.mode = .colon) (s : Str) : r.run (':' :: ' ' :: s) = ({ r with mode := .val } : JRd).run s := by
  rw [run_cons (r' := { r with mode := .val }) (by simp [step, hm, jSpace]), run_cons (r' := { r with mode := .val }) (by simp [step, jSpace])]

/-- what reading a value means -/
def Reads (ind : Option Int) (j : J) : Prop :=
  ∀ (l : Nat) (r : JRd), (r.mode = .val ∨ r.mode = .first) → r.run (dumpJ ind l j) = .ok (r.attach j)

theorem run_arr {ind : Option Int} : ∀ (xs : List J), (∀ x ∈ xs, Reads ind x) → ∀ (l : Nat) (r : JRd) (acc : List J) (fs : List JFrame),
    r.mode = .after → r.stack = .arr acc :: fs → r.run (dumpArr ind l xs) = .ok { r with stack := .arr (acc ++ xs) :: fs } := by
  intro xs
  induction xs with
  | nil => intro _ l r acc fs hm hs; rw [List.append_nil, ← hs]; rfl
  | cons x xs ih =>
    intro h l r acc fs hm hs
    rw [dumpArr, run_sep_arr hm hs, run_ok (h x (by simp) l _ (.inl rfl)),
      ih (fun y hy => h y (by simp [hy])) l _ (acc ++ [x]) fs (by simp [attach, hs]) (by simp [attach, hs])]
    simp [attach, hs, hm]

theorem run_obj {ind : Option Int} : ∀ (xs : List (Str × J)), (∀ p ∈ xs, Reads ind p.2) → ∀ (l : Nat) (r : JRd) (acc : List (Str × J)) (k : Str)
    (fs : List JFrame), ((acc ++ xs).map (·.1)).Nodup → r.mode = .after → r.stack = .obj acc k :: fs →
    ∃ k', r.run (dumpObj ind l xs) = .ok { r with stack := .obj (acc ++ xs) k' :: fs } := by
  intro xs
  induction xs with
  | nil => intro _ l r acc k fs _ hm hs; exact ⟨k, by rw [List.append_nil, ← hs]; rfl⟩
  | cons p xs ih =>
    obtain ⟨n, x⟩ := p
    intro h l r acc k fs hw hm hs
    have hn : n ∉ Dict.keys acc := by
      rw [List.map_append, List.map_cons, List.nodup_append] at hw
      intro hmem
      exact hw.2.2 n hmem n (by simp) rfl
    have e : Dict.set acc n x = acc ++ [(n, x)] := set_append_new hn
    obtain ⟨k', hk⟩ := ih (fun y hy => h y (by simp [hy])) l { r with mode := .after, stack := .obj (acc ++ [(n, x)]) n :: fs }
      (acc ++ [(n, x)]) n fs (by simpa using hw) rfl rfl
    refine ⟨k', ?_⟩
    rw [dumpObj, run_sep_obj hm hs, run_ok (run_key (r := { r with mode := .key }) (acc := acc) (k0 := k) (fs := fs) n (.inr rfl) hs), run_colon rfl,
      run_ok (h (n, x) (by simp) l _ (.inl rfl))]
    simp only [attach, e, hk, List.append_assoc, List.singleton_append, hm]

theorem attach_frame (r : JRd) (m : JMode) (j : J) : ({ r with mode := m } : JRd).attach j = r.attach j := by
  simp only [attach]

theorem reads {ind : Option Int} : ∀ j, JOK j → Reads ind j := by
  intro j
  induction j using J.ind with
  | hn =>
    intro _ l r hm
    have h0 : r.step 'n' = .ok { r with mode := .null (lit! "ull") } := by
      rw [run_start hm (by decide) (by decide)]; simp [start]
    rw [dumpJ, run_cons h0, run_cons (r' := { r with mode := .null (lit! "ll") }) (by simp [step]),
      run_cons (r' := { r with mode := .null (lit! "l") }) (by simp [step]), run_cons (r' := r.attach .null) (by simp [step, attach_frame])]
    rfl
  | hs s => intro _ l r hm; rw [dumpJ]; exact run_string s hm
  | ha xs ih =>
    intro h l r hm
    cases h with
    | arr h =>
    have h0 : r.step '[' = .ok { r with mode := .first, stack := .arr [] :: r.stack } := by
      rw [run_start hm (by decide) (by decide)]; simp [start]
    cases xs with
    | nil =>
      rw [dumpJ, run_cons h0, run_cons (r' := r.attach (.arr []))]
      · rfl
      · simp only [step, close, attach]; simp [jSpace]
    | cons x xs =>
      rw [dumpJ, run_cons h0, run_newline (.inr (.inl rfl)), run_ok (ih x (by simp) (h x (by simp)) (l + 1) _ (.inr rfl)),
        run_ok (run_arr xs (fun y hy => ih y (by simp [hy]) (h y (by simp [hy]))) (l + 1) _ [x] r.stack rfl rfl),
        run_newline (.inr (.inr (.inr (.inr (.inr rfl))))), run_cons (r' := r.attach (.arr (x :: xs)))]
      · rfl
      · simp only [step, attach, close]; simp [jSpace]
  | ho d ih =>
    intro h l r hm
    cases h with
    | obj hw h =>
    have h0 : r.step '{' = .ok { r with mode := .key0, stack := .obj [] [] :: r.stack } := by
      rw [run_start hm (by decide) (by decide)]; simp [start]
    cases d with
    | nil =>
      rw [dumpJ, run_cons h0, run_cons (r' := r.attach (.obj []))]
      · rfl
      · simp only [step, close, attach]; simp [jSpace]
    | cons p xs =>
      obtain ⟨n, x⟩ := p
      obtain ⟨k', hk⟩ := run_obj (ind := ind) xs (fun y hy => ih y (by simp [hy]) (h y (by simp [hy]))) (l + 1)
        { r with mode := .after, stack := .obj [(n, x)] n :: r.stack } [(n, x)] n r.stack (by simpa using hw) rfl rfl
      rw [dumpJ, run_cons h0, run_newline (.inr (.inr (.inl rfl))), run_ok (run_key (acc := []) (k0 := []) (fs := r.stack) n (.inl rfl) rfl),
        run_colon rfl, run_ok (ih (n, x) (by simp) (h (n, x) (by simp)) (l + 1) _ (.inl rfl))]
      simp only [attach, Dict.set]
      rw [run_ok hk, run_newline (.inr (.inr (.inr (.inr (.inr rfl))))), run_cons (r' := r.attach (.obj ((n, x) :: xs)))]
      · rfl
      · simp only [step, attach, close]; simp [jSpace]

end JRd

/-- **C91** (the text layer): text written from a JSON value without repeated keys, with any
indentation or none, reads back as that value. -/
theorem C91_layer (ind : Option Int) (j : J) (h : JOK j) : jsonLoads (jsonDumps ind j) = .ok j := by
  simp only [jsonLoads, jsonDumps, JRd.reads j h 0 {} (.inl rfl), bind, Except.bind]
  rfl

/-! ### Only ASCII is written -/

/-- a printable ASCII character or a line break -/
def Plain (c : Char) : Prop := c = '\n' ∨ (32 ≤ c.toNat ∧ c.toNat ≤ 126)

theorem hexDigit_plain (n : Nat) (h : n < 16) : Plain (hexDigit n) := by
  have : ∀ m : Fin 16, 32 ≤ (hexDigit m.1).toNat ∧ (hexDigit m.1).toNat ≤ 126 := by decide
  exact .inr (this ⟨n, h⟩)

theorem hex4_plain (n : Nat) : ∀ c ∈ hex4 n, Plain c := by
  intro c hc
  simp only [hex4, List.mem_cons, List.not_mem_nil, or_false] at hc
  rcases hc with rfl | rfl | rfl | rfl <;> exact hexDigit_plain _ (Nat.mod_lt _ (by decide))

theorem escJ_plain (x : Char) : ∀ c ∈ escJ x, Plain c := by
  have hb : Plain '\\' := .inr (by decide)
  have hu : Plain 'u' := .inr (by decide)
  have hl : ∀ s : Str, (s.all fun c => decide (32 ≤ c.toNat ∧ c.toNat ≤ 126)) = true → ∀ c ∈ s, Plain c := by
    intro s h c hc
    exact .inr (by simpa using List.all_eq_true.1 h c hc)
  unfold escJ
  repeat' split
  all_goals first | exact hl _ (by decide) | skip
  · next h => intro c hc; rw [List.mem_singleton.1 hc]; exact .inr h
  · intro c hc
    simp only [List.mem_cons] at hc
    rcases hc with rfl | rfl | hc
    · exact hb
    · exact hu
    · exact hex4_plain _ c hc
  · intro c hc
    simp only [List.mem_cons, List.mem_append] at hc
    rcases hc with rfl | rfl | hc | rfl | rfl | hc
    · exact hb
    · exact hu
    · exact hex4_plain _ c hc
    · exact hb
    · exact hu
    · exact hex4_plain _ c hc

theorem quoteJ_plain (s : Str) : ∀ c ∈ quoteJ s, Plain c := by
  intro c hc
  simp only [quoteJ, List.mem_cons, List.mem_append, List.mem_flatMap, List.not_mem_nil, or_false] at hc
  rcases hc with rfl | ⟨x, _, hx⟩ | rfl
  · exact .inr (by decide)
  · exact escJ_plain x c hx
  · exact .inr (by decide)

theorem newlineJ_plain (ind : Option Int) (l : Nat) : ∀ c ∈ newlineJ ind l, Plain c := by
  intro c hc
  cases ind with
  | none => simp [newlineJ] at hc
  | some i =>
    simp only [newlineJ, List.mem_cons, List.mem_replicate] at hc
    rcases hc with rfl | ⟨_, rfl⟩
    · exact .inl rfl
    · exact .inr (by decide)

theorem sepJ_plain (ind : Option Int) (l : Nat) : ∀ c ∈ sepJ ind l, Plain c := by
  intro c hc
  cases ind with
  | none =>
    simp only [sepJ, List.mem_cons, List.not_mem_nil, or_false] at hc
    rcases hc with rfl | rfl <;> exact .inr (by decide)
  | some i =>
    rw [sepJ, List.mem_cons] at hc
    rcases hc with rfl | hc
    · exact .inr (by decide)
    · exact newlineJ_plain _ l c hc

theorem dumpJ_plain (ind : Option Int) : ∀ (j : J) (l : Nat), ∀ c ∈ dumpJ ind l j, Plain c := by
  intro j
  induction j using J.ind with
  | hn => intro l; rw [dumpJ]; unfold Plain; decide
  | hs s => intro l; rw [dumpJ]; exact quoteJ_plain s
  | ha xs ih =>
    have harr : ∀ (ys : List J) (l : Nat), (∀ y ∈ ys, ∀ l, ∀ c ∈ dumpJ ind l y, Plain c) → ∀ c ∈ dumpArr ind l ys, Plain c := by
      intro ys
      induction ys with
      | nil => intro l _ c hc; simp [dumpArr] at hc
      | cons y ys ihy =>
        intro l h c hc
        simp only [dumpArr, List.mem_append] at hc
        rcases hc with hc | hc | hc
        · exact sepJ_plain _ _ c hc
        · exact h y (by simp) l c hc
        · exact ihy l (fun z hz => h z (by simp [hz])) c hc
    intro l c hc
    cases xs with
    | nil =>
      simp only [dumpJ, List.mem_cons, List.not_mem_nil, or_false] at hc
      rcases hc with rfl | rfl <;> exact .inr (by decide)
    | cons x xs =>
      simp only [dumpJ, List.mem_append, List.mem_cons, List.not_mem_nil, or_false] at hc
      rcases hc with rfl | hc | hc | hc | hc | rfl
      · exact .inr (by decide)
      · exact newlineJ_plain _ _ c hc
      · exact ih x (by simp) _ c hc
      · exact harr xs _ (fun y hy => ih y (by simp [hy])) c hc
      · exact newlineJ_plain _ _ c hc
      · exact .inr (by decide)
  | ho d ih =>
    have hobj : ∀ (ys : List (Str × J)) (l : Nat), (∀ y ∈ ys, ∀ l, ∀ c ∈ dumpJ ind l y.2, Plain c) → ∀ c ∈ dumpObj ind l ys, Plain c := by
      intro ys
      induction ys with
      | nil => intro l _ c hc; simp [dumpObj] at hc
      | cons y ys ihy =>
        obtain ⟨n, y⟩ := y
        intro l h c hc
        simp only [dumpObj, List.mem_append, List.mem_cons] at hc
        rcases hc with hc | hc | rfl | rfl | hc | hc
        · exact sepJ_plain _ _ c hc
        · exact quoteJ_plain _ c hc
        · exact .inr (by decide)
        · exact .inr (by decide)
        · exact h (n, y) (by simp) l c hc
        · exact ihy l (fun z hz => h z (by simp [hz])) c hc
    intro l c hc
    cases d with
    | nil =>
      simp only [dumpJ, List.mem_cons, List.not_mem_nil, or_false] at hc
      rcases hc with rfl | rfl <;> exact .inr (by decide)
    | cons x xs =>
      obtain ⟨n, x⟩ := x
      simp only [dumpJ, List.mem_append, List.mem_cons, List.not_mem_nil, or_false] at hc
      rcases hc with rfl | hc | hc | rfl | rfl | hc | hc | hc | rfl
      · exact .inr (by decide)
      · exact newlineJ_plain _ _ c hc
      · exact quoteJ_plain _ c hc
      · exact .inr (by decide)
      · exact .inr (by decide)
      · exact ih (n, x) (by simp) _ c hc
      · exact hobj xs _ (fun y hy => ih y (by simp [hy])) c hc
      · exact newlineJ_plain _ _ c hc
      · exact .inr (by decide)

/-- **C91** (encoding): the text of any JSON value has only printable ASCII characters and line breaks,
so writing it to a file does not depend on the encoding `open` chooses (xigtjson.py:33-34, where the
argument `encoding` is ignored). -/
theorem C91_ascii (ind : Option Int) (j : J) : ∀ c ∈ jsonDumps ind j, c = '\n' ∨ (32 ≤ c.toNat ∧ c.toNat ≤ 126) :=
  dumpJ_plain ind j 0

/-! ### What `encode` writes has no key twice -/

/-- the keys are among `ks`, in that order, and the values have no key twice -/
def Keyed (d : List (Str × J)) (ks : List Str) : Prop := (d.map (·.1)).Sublist ks ∧ ∀ p ∈ d, JOK p.2

theorem Keyed.nil (ks : List Str) : Keyed [] ks := ⟨by simp, by simp⟩
theorem Keyed.one {k : Str} {v : J} (h : JOK v) : Keyed [(k, v)] [k] := ⟨by simp, by simp [h]⟩
theorem Keyed.append {a b : List (Str × J)} {ka kb : List Str} (ha : Keyed a ka) (hb : Keyed b kb) : Keyed (a ++ b) (ka ++ kb) := by
  refine ⟨by rw [List.map_append]; exact ha.1.append hb.1, fun p hp => ?_⟩
  rcases List.mem_append.1 hp with hp | hp
  · exact ha.2 p hp
  · exact hb.2 p hp
theorem Keyed.jok {d : List (Str × J)} {ks : List Str} (h : Keyed d ks) (hk : ks.Nodup) : JOK (.obj d) := .obj (h.1.nodup hk) h.2

theorem keyed_field {k : Str} {v : Option J} (h : ∀ j, v = some j → JOK j) : Keyed (field k v) [k] := by
  cases v with
  | none => exact .nil _
  | some j => exact .one (h j rfl)

theorem keyed_strField (k : Str) (s : Option Str) : Keyed (strField k s) [k] := by
  apply keyed_field
  intro j hj
  cases h : s.filter fun s => !s.isEmpty with
  | none => rw [h] at hj; cases hj
  | some t => rw [h] at hj; injection hj with hj; subst hj; exact .str _

theorem keyed_textField (s : Option Str) : Keyed (textField s) [lit! "text"] := by
  apply keyed_field
  intro j hj
  cases s with
  | none => cases hj
  | some t => injection hj with hj; subst hj; exact .str _

theorem keyed_listField (k : Str) {l : List J} (h : ∀ x ∈ l, JOK x) : Keyed (listField k l) [k] := by
  rw [listField]
  split
  · exact .nil _
  · exact .one (.arr h)

theorem jok_jDict {d : Dict Str Str} (h : d.WF) : JOK (jDict d) := by
  refine .obj ?_ ?_
  · rw [List.map_map]; exact h
  · intro p hp
    obtain ⟨q, _, rfl⟩ := List.mem_map.1 hp
    exact .str _

theorem jsonAttrs_wf {inv : Dict Str Str} : ∀ (l acc out : Dict Str Str), acc.WF → jsonAttrs inv acc l = .ok out → out.WF := by
  intro l
  induction l with
  | nil => intro acc out h e; simp only [jsonAttrs, Except.ok.injEq] at e; exact e ▸ h
  | cons p l ih =>
    obtain ⟨k, v⟩ := p
    intro acc out h e
    simp only [jsonAttrs, bind, Except.bind] at e
    split at e
    · cases e
    · exact ih _ _ (h.set _ _) e

theorem activeNs_wf (d : Data) (eff : Dict Str Str) {ctx : Dict Str Str} (h : ctx.WF) : (activeNs d eff ctx).WF :=
  WF_update _ _ h

theorem newNs_wf' {active ctx : Dict Str Str} (h : active.WF) : Dict.WF (newNs active ctx) := by
  refine List.Nodup.sublist ?_ h
  exact List.filter_sublist.map _

theorem keyed_makeObj {d : Data} {eff ctx : Dict Str Str} {fs : List (Str × J)} (hw : ctx.WF) (h : makeObj d eff ctx = .ok fs) :
    Keyed fs baseKeys := by
  simp only [makeObj, bind, Except.bind, pure, Except.pure] at h
  split at h
  · cases h
  · next attrs ha =>
    injection h with h
    subst h
    have h1 : Keyed (if d.attrs.isEmpty then [] else [(lit! "attributes", jDict attrs)]) [lit! "attributes"] := by
      split
      · exact .nil _
      · exact .one (jok_jDict (jsonAttrs_wf _ _ _ Dict.wf_nil ha))
    have h2 : Keyed (if (newNs (activeNs d eff ctx) ctx).isEmpty then [] else [(lit! "namespaces", jDict (newNs (activeNs d eff ctx) ctx))])
        [lit! "namespaces"] := by
      split
      · exact .nil _
      · exact .one (jok_jDict (newNs_wf' (activeNs_wf d eff hw)))
    exact ((((keyed_strField _ _).append (keyed_strField _ _)).append h1).append (keyed_strField _ _)).append h2

theorem Keyed.del {d : List (Str × J)} {ks : List Str} (h : Keyed d ks) (k : Str) : Keyed (Dict.del d k) ks := by
  have : (Dict.del d k).Sublist d := by
    clear h
    induction d with
    | nil => exact .slnil
    | cons p d ih =>
      rw [Dict.del]
      split
      · exact .cons _ (List.Sublist.refl _)
      · exact .cons_cons _ ih
  exact ⟨(this.map _).trans h.1, fun p hp => h.2 p (this.subset hp)⟩

theorem keyed_mcName {inv : Dict Str Str} {fs : List (Str × J)} {ks : List Str} (h : Keyed fs ks) (name : Str) :
    Keyed (mcName inv fs name) (ks ++ [lit! "name"]) := by
  rw [mcName]
  split
  · split
    · exact (h.del _).append (.one (.str _))
    · exact h.append (.one (.str _))
  · exact h.append (.one (.str _))

theorem mapPy_jok {f : Obj → Py J} (hf : ∀ x j, f x = .ok j → JOK j) : ∀ {xs : List Obj} {js : List J}, mapPy f xs = .ok js → ∀ j ∈ js, JOK j := by
  intro xs
  induction xs with
  | nil => intro js h; simp only [mapPy, Except.ok.injEq] at h; subst h; simp
  | cons x xs ih =>
    intro js h
    simp only [mapPy, bind, Except.bind, pure, Except.pure] at h
    split at h
    · cases h
    · next j hj =>
      split at h
      · cases h
      · next js' hjs =>
        injection h with h
        subst h
        intro y hy
        rcases List.mem_cons.1 hy with rfl | hy
        · exact hf x _ hj
        · exact ih hjs y hy

theorem jok_mc : ∀ (x : Obj) (eff ctx : Dict Str Str) (j : J), ctx.WF → encodeMc eff ctx x = .ok j → JOK j := by
  intro x
  induction x using Obj.ind with
  | h d md kids _ ih =>
  intro eff ctx j hw h
  have hks : ∀ (ys : List Obj), (∀ y ∈ ys, y ∈ kids) → ∀ js, encodeMcs (effNs d eff) (activeNs d eff ctx) ys = .ok js → ∀ j ∈ js, JOK j := by
    intro ys
    induction ys with
    | nil => intro _ js h; simp only [encodeMcs, Except.ok.injEq] at h; subst h; simp
    | cons y ys ihy =>
      intro hm js h
      simp only [encodeMcs, bind, Except.bind, pure, Except.pure] at h
      split at h
      · cases h
      · next j hj =>
        split at h
        · cases h
        · next js' hjs =>
          injection h with h
          subst h
          intro z hz
          rcases List.mem_cons.1 hz with rfl | hz
          · exact ih y (hm y (by simp)) _ _ _ (activeNs_wf d eff hw) hj
          · exact ihy (fun z hz => hm z (by simp [hz])) _ hjs z hz
  simp only [encodeMc, bind, Except.bind, pure, Except.pure] at h
  split at h
  · cases h
  · next fs hfs =>
    split at h
    · cases h
    · next js hjs =>
      injection h with h
      subst h
      exact (((keyed_mcName (keyed_makeObj hw hfs) _).append (keyed_textField _)).append
        (keyed_listField _ (hks kids (fun _ h => h) js hjs))).jok (by decide)

theorem jok_meta {eff ctx : Dict Str Str} (hw : ctx.WF) (x : Obj) (j : J) (h : encodeMeta eff ctx x = .ok j) : JOK j := by
  simp only [encodeMeta, encodeMcs_eq, bind, Except.bind, pure, Except.pure] at h
  split at h
  · cases h
  · next fs hfs =>
    split at h
    · cases h
    · next js hjs =>
      injection h with h
      subst h
      exact (((keyed_makeObj hw hfs).append (keyed_textField _)).append
        (keyed_listField _ (mapPy_jok (fun y k hk => jok_mc y _ _ k (activeNs_wf _ _ hw) hk) hjs))).jok (by decide)

theorem jok_md {eff ctx : Dict Str Str} (hw : ctx.WF) (x : Obj) (j : J) (h : encodeMd eff ctx x = .ok j) : JOK j := by
  simp only [encodeMd, bind, Except.bind, pure, Except.pure] at h
  split at h
  · cases h
  · next fs hfs =>
    split at h
    · cases h
    · next js hjs =>
      injection h with h
      subst h
      exact ((keyed_makeObj hw hfs).append (.one (.arr (mapPy_jok (fun y k hk => jok_meta (activeNs_wf _ _ hw) y k hk) hjs)))).jok (by decide)

theorem jok_item {eff ctx : Dict Str Str} (hw : ctx.WF) (x : Obj) (j : J) (h : encodeItem eff ctx x = .ok j) : JOK j := by
  simp only [encodeItem, bind, Except.bind, pure, Except.pure] at h
  split at h
  · cases h
  · next fs hfs =>
    injection h with h
    subst h
    exact ((keyed_makeObj hw hfs).append (keyed_strField _ _)).jok (by decide)

/-- a tier, an IGT or a corpus: the keys of the object, its metadata and its members -/
theorem jok_outer {d : Data} {eff ctx : Dict Str Str} {fs : List (Str × J)} {md kids : List Obj} {mjs kjs : List J} {f : Obj → Py J} (k : Str)
    (hw : ctx.WF) (hfs : makeObj d eff ctx = .ok fs) (hmd : mapPy (encodeMd (effNs d eff) (activeNs d eff ctx)) md = .ok mjs)
    (hf : ∀ x j, f x = .ok j → JOK j) (hk : mapPy f kids = .ok kjs) (hn : (baseKeys ++ [lit! "metadata"] ++ [k]).Nodup) :
    JOK (.obj (fs ++ listField (lit! "metadata") mjs ++ [(k, .arr kjs)])) :=
  (((keyed_makeObj hw hfs).append (keyed_listField _ (mapPy_jok (fun y j hj => jok_md (activeNs_wf _ _ hw) y j hj) hmd))).append
    (.one (.arr (mapPy_jok hf hk)))).jok hn

theorem jok_tier {eff ctx : Dict Str Str} (hw : ctx.WF) (x : Obj) (j : J) (h : encodeTier eff ctx x = .ok j) : JOK j := by
  simp only [encodeTier, bind, Except.bind, pure, Except.pure] at h
  split at h
  · cases h
  · next fs hfs =>
    split at h
    · cases h
    · next mjs hm =>
      split at h
      · cases h
      · next js hjs =>
        injection h with h
        subst h
        exact jok_outer _ hw hfs hm (jok_item (activeNs_wf _ _ hw)) hjs (by decide)

theorem jok_igt {eff ctx : Dict Str Str} (hw : ctx.WF) (x : Obj) (j : J) (h : encodeIgt eff ctx x = .ok j) : JOK j := by
  simp only [encodeIgt, bind, Except.bind, pure, Except.pure] at h
  split at h
  · cases h
  · next fs hfs =>
    split at h
    · cases h
    · next mjs hm =>
      split at h
      · cases h
      · next js hjs =>
        injection h with h
        subst h
        exact jok_outer _ hw hfs hm (jok_tier (activeNs_wf _ _ hw)) hjs (by decide)

/-- what `encode` returns has no key twice, whatever the corpus -/
theorem jok_corpus (x : Obj) (j : J) (h : encodeCorpus x = .ok j) : JOK j := by
  simp only [encodeCorpus, bind, Except.bind, pure, Except.pure] at h
  split at h
  · cases h
  · next fs hfs =>
    split at h
    · cases h
    · next mjs hm =>
      split at h
      · cases h
      · next js hjs =>
        injection h with h
        subst h
        exact jok_outer _ Dict.wf_nil hfs hm (jok_igt (activeNs_wf _ _ Dict.wf_nil)) hjs (by decide)

section
variable [Uni]

/-- **C91**: for every corpus and every indentation, reading the text that `dumps` returns gives what
decoding the encoded value gives: the text layer loses nothing and adds nothing. -/
theorem C91_text (x : Obj) (ind : Option Int) : (dumpsJson ind x >>= loadsJson) = (encodeCorpus x >>= decodeCorpus) := by
  simp only [dumpsJson, loadsJson, bind, Except.bind, pure, Except.pure]
  cases h : encodeCorpus x with
  | error e => rfl
  | ok j => simp only [C91_layer ind j (jok_corpus x j h)]

/-- **C91**: under the conditions of C38, a corpus written as JSON text with any indentation reads back
as an equal corpus, and the text has only printable ASCII characters and line breaks. -/
theorem C91_equal (x : Obj) (ind : Option Int) (hc : x.cls = .corpus) (hw : x.WF) (hv : x.Valid) (hk : JsonKept noScope x) :
    ∃ s y, dumpsJson ind x = .ok s ∧ loadsJson s = .ok y ∧ Obj.eq y x = true ∧ ∀ c ∈ s, c = '\n' ∨ (32 ≤ c.toNat ∧ c.toNat ≤ 126) := by
  obtain ⟨j, y, hj, hy, _, he⟩ := C38_partial x hc hw hv hk
  refine ⟨jsonDumps ind j, y, ?_, ?_, ?_, C91_ascii ind j⟩
  · simp only [dumpsJson, hj, bind, Except.bind, pure, Except.pure]
  · simp only [loadsJson, C91_layer ind j (jok_corpus x j hj), bind, Except.bind, hy]
  · exact he
end

section
attribute [local instance] asciiUni

example : ∃ s y, dumpsJson (some 2) exJson = .ok s ∧ loadsJson s = .ok y ∧ Obj.eq y exJson = true :=
  let ⟨s, y, h1, h2, h3, _⟩ := C91_equal exJson (some 2) rfl exJson_wf exJson_valid exJson_kept
  ⟨s, y, h1, h2, h3⟩

/-- escapes, a surrogate pair and nested empty values -/
example : jsonDumps none (.obj [(lit! "a\"", .arr [.str (lit! "𝄞é\n"), .arr [], .obj []])]) =
    lit! "{\"a\\\"\": [\"\\ud834\\udd1e\\u00e9\\n\", [], {}]}" := by decide +kernel
example : JOK (.obj [(lit! "a\"", .arr [.str (lit! "𝄞é\n"), .arr [], .obj []])]) :=
  .obj (by decide) (by
    intro p hp
    rw [List.mem_singleton.1 hp]
    refine .arr fun x hx => ?_
    simp only [List.mem_cons, List.not_mem_nil, or_false] at hx
    rcases hx with rfl | rfl | rfl
    · exact .str _
    · exact .arr (by simp)
    · exact .obj (by simp) (by simp))

/-- of two equal keys the last wins, so the condition of `C91_layer` is needed -/
example : jsonLoads (lit! "{\"a\": \"1\", \"a\": \"2\"}") = .ok (.obj [(lit! "a", .str (lit! "2"))]) := rfl
/-- white space does not matter, text after the value does -/
example : jsonLoads (lit! " [ \"\\u0041\"\n, []\t] ") = .ok (.arr [.str (lit! "A"), .arr []]) := rfl
example : jsonLoads (lit! "[] []") = .error .valueError := rfl
end

end Xigt
