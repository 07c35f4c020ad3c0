import Verif.RegexSpec
import Verif.Path.Lemmas
/-
C128: what the tokenizer of paths does with any string (xigtpath.py:33-48).
-/
set_option linter.unusedSectionVars false

namespace Xigt.XP
open Re

/-! ### Specification -/

/-- a piece of a path: a symbol or a word with a meaning of its own, a quoted string, or a run of
characters that are no symbols (white space among them) -/
def Piece (t : Str) : Prop :=
  t ∈ [lit! "/", lit! "//", lit! ".", lit! "..", lit! "@", lit! "[", lit! "]", lit! "(", lit! ")", lit! "|", lit! "!=", lit! "=",
    lit! "text", lit! "value", lit! "referent", lit! "referrer", lit! "*"] ∨
  (∃ s, t = '"' :: s ++ ['"']) ∨
  (t ≠ [] ∧ ∀ c ∈ t, c ∉ lit! "./[]!=|()")

/-- `Cut s ts` : `s` is cut into the pieces `ts`, and all that is lost are exclamation marks that do
not stand before an equals sign. -/
inductive Cut : Str → List Str → Prop
  | nil : Cut [] []
  | lost {s : Str} {ts : List Str} : s.head? ≠ some '=' → Cut s ts → Cut ('!' :: s) ts
  | piece {t s : Str} {ts : List Str} : Piece t → Cut s ts → Cut (t ++ s) (t :: ts)

section
variable [Uni]

/-! ### Proof -/

theorem matches_chr {d : Char} {u c w : Str} (h : Matches (chr d) u c w) : c = [d] := by
  cases h with
  | cls h => simpa using h

theorem matches_str : ∀ {t u c w : Str}, Matches (Re.str t) u c w → c = t := by
  intro t
  induction t with
  | nil => intro u c w h; cases h; rfl
  | cons x t ih =>
    intro u c w h
    cases t with
    | nil => exact matches_chr h
    | cons y t =>
      unfold Re.str at h
      cases h with
      | seq h1 h2 => rw [matches_chr h1, ih h2]; rfl

theorem matches_opt {a : Re} {u c w : Str} (h : Matches (opt a) u c w) : c = [] ∨ Matches a u c w := by
  cases h with
  | left h => exact Or.inr h
  | right h => cases h; exact Or.inl rfl

theorem matches_chr2 {d e : Char} {u c w : Str} (h : Matches (.seq (chr d) (opt (chr e))) u c w) : c = [d] ∨ c = [d, e] := by
  cases h with
  | seq h1 h2 =>
    rw [matches_chr h1]
    rcases matches_opt h2 with h | h
    · subst h; exact Or.inl rfl
    · rw [matches_chr h]; exact Or.inr rfl

theorem matches_star_cls {p : Char → Bool} : ∀ {r : Re} {u c w : Str}, Matches r u c w → r = .star (.cls p) → ∀ x ∈ c, p x = true := by
  intro r u c w h
  induction h with
  | none => intro _ x hx; cases hx
  | more h1 _ _ ih2 =>
    intro e x hx
    cases e
    rcases List.mem_append.1 hx with h | h
    · cases h1 with
      | cls hp => rw [List.mem_singleton.1 h]; exact hp
    · exact ih2 rfl x h
  | _ => intro e; cases e

theorem nameCh_iff (c : Char) : nameCh c = true ↔ c ∉ lit! "./[]!=|()" := by
  simp [nameCh, and_assoc]

theorem matches_altRe : ∀ {rs : List Re} {u c w : Str}, Matches (altRe rs) u c w ↔ ∃ r ∈ rs, Matches r u c w := by
  intro rs
  induction rs with
  | nil =>
    intro u c w
    refine ⟨fun h => ?_, fun ⟨_, h, _⟩ => (nomatch h)⟩
    cases h with
    | cls h => exact absurd h (by simp)
  | cons r rs ih =>
    intro u c w
    cases rs with
    | nil => simp [altRe]
    | cons r2 rs =>
      unfold altRe
      refine ⟨fun h => ?_, fun ⟨q, hq, h⟩ => ?_⟩
      · cases h with
        | left h => exact ⟨r, by simp, h⟩
        | right h =>
          obtain ⟨q, hq, h⟩ := ih.1 h
          exact ⟨q, List.mem_cons_of_mem _ hq, h⟩
      · rcases List.mem_cons.1 hq with rfl | hq
        · exact .left h
        · exact .right (ih.2 ⟨q, hq, h⟩)

theorem matches_quoted {u c w : Str} (h : Matches quotedRe u c w) : ∃ s, c = '"' :: s ++ ['"'] := by
  unfold quotedRe at h
  simp only [cat] at h
  cases h with
  | seq h1 h2 =>
    cases h2 with
    | seq h2 h3 =>
      rw [matches_chr h1, matches_chr h3]
      exact ⟨_, rfl⟩

/-- what the pattern matches are pieces -/
theorem tokenRe_piece {u t w : Str} (h : Matches tokenRe u t w) : Piece t := by
  obtain ⟨r, hr, h⟩ := matches_altRe.1 h
  simp only [List.mem_cons, List.not_mem_nil, or_false] at hr
  rcases hr with rfl | rfl | rfl | rfl | rfl | rfl | rfl | rfl | rfl | rfl | rfl | rfl | rfl | rfl
  · exact Or.inr (Or.inl (matches_quoted h))
  · rcases matches_chr2 h with rfl | rfl <;> exact Or.inl (by decide)
  · rcases matches_chr2 h with rfl | rfl <;> exact Or.inl (by decide)
  · rw [matches_chr h]; exact Or.inl (by decide)
  · rw [matches_chr h]; exact Or.inl (by decide)
  · rw [matches_chr h]; exact Or.inl (by decide)
  · rw [matches_chr h]; exact Or.inl (by decide)
  · rw [matches_chr h]; exact Or.inl (by decide)
  · rw [matches_chr h]; exact Or.inl (by decide)
  · rw [matches_str h]; exact Or.inl (by decide)
  · rw [matches_chr h]; exact Or.inl (by decide)
  · obtain ⟨q, hq, h⟩ := matches_altRe.1 h
    simp only [List.mem_cons, List.not_mem_nil, or_false] at hq
    rcases hq with rfl | rfl | rfl | rfl <;> (rw [matches_str h]; exact Or.inl (by decide))
  · rw [matches_chr h]; exact Or.inl (by decide)
  · refine Or.inr (Or.inr ⟨plus_cls_ne h, ?_⟩)
    cases h with
    | seq h1 h2 =>
      intro c hc
      rw [← nameCh_iff]
      rcases List.mem_append.1 hc with hc | hc
      · cases h1 with
        | cls hp => rw [List.mem_singleton.1 hc]; exact hp
      · exact matches_star_cls h2 rfl c hc

/-- every character but an exclamation mark begins a match -/
theorem tokenRe_some (u : Str) (x : Char) (xs : Str) (h : x ≠ '!' ∨ xs.head? = some '=') : ∃ c w, x :: xs = c ++ w ∧ Matches tokenRe u c w := by
  by_cases hn : nameCh x = true
  · refine ⟨[x], xs, rfl, matches_altRe.2 ⟨.plus (.cls nameCh), by simp, ?_⟩⟩
    exact Matches.seq (c := [x]) (d := []) (.cls hn) .none
  · rw [nameCh_iff] at hn
    simp only [Decidable.not_not] at hn
    have one : ∀ d : Char, x = d → chr d ∈ [quotedRe,
  .seq (.chr '/') (.opt (.chr '/')),
  .seq (.chr '.') (.opt (.chr '.')),
  .chr '@', .chr '[', .chr ']', .chr '(', .chr ')', .chr '|',
  .str (lit! "!="), .chr '=',
  altRe [.str (lit! "text"), .str (lit! "value"), .str (lit! "referent"), .str (lit! "referrer")],
  .chr '*', .plus (.cls nameCh)] → ∃ c w, x :: xs = c ++ w ∧ Matches tokenRe u c w := by
      intro d hd hm
      exact ⟨[x], xs, rfl, matches_altRe.2 ⟨chr d, hm, .cls (by simp [hd])⟩⟩
    simp only [List.mem_cons, List.not_mem_nil, or_false] at hn
    rcases hn with rfl | rfl | rfl | rfl | rfl | rfl | rfl | rfl | rfl
    · exact ⟨_, xs, rfl, matches_altRe.2 ⟨.seq (chr '.') (opt (chr '.')), by simp, Matches.seq (c := ['.']) (d := []) (.cls (by simp)) (.right .eps)⟩⟩
    · exact ⟨_, xs, rfl, matches_altRe.2 ⟨.seq (chr '/') (opt (chr '/')), by simp, Matches.seq (c := ['/']) (d := []) (.cls (by simp)) (.right .eps)⟩⟩
    · exact one '[' rfl (by simp)
    · exact one ']' rfl (by simp)
    · cases xs with
      | nil => simp at h
      | cons y ys =>
        obtain rfl : y = '=' := by simpa using h
        exact ⟨_, ys, rfl, matches_altRe.2 ⟨.str (lit! "!="), by simp, Matches.seq (c := ['!']) (d := ['=']) (.cls (by simp)) (.cls (by simp))⟩⟩
    · exact one '=' rfl (by simp)
    · exact one '|' rfl (by simp)
    · exact one '(' rfl (by simp)
    · exact one ')' rfl (by simp)

theorem tokenRe_pos : tokenRe.pos = true := by decide

theorem found_cut : ∀ bol s must, ∀ u : Str, bol = u.isEmpty → Cut s ((found tokenRe bol s must).map (·.1)) := by
  apply scan_induct tokenRe
  · intro bol s must c st h ih u hb
    subst hb
    rw [found_matchAt h]
    have hs := matchAt_sound h
    have h2 := run_matches tokenRe u _ _ rfl (matchAt_mem h)
    rw [hs.1]
    exact .piece (tokenRe_piece h2) (ih (u ++ c) (isEmpty_append u c).symm)
  · intro bol must h u hb
    rw [found_nil h]; exact .nil
  · intro bol x xs must h ih u hb
    subst hb
    rw [found_skip h]
    have hno := matchAt_none_iff (pos_never tokenRe_pos) h
    have hx : ¬ (x ≠ '!' ∨ xs.head? = some '=') := by
      intro hx
      obtain ⟨c, w, e, hm⟩ := tokenRe_some u x xs hx
      exact hno c w e hm
    have : x = '!' := Decidable.byContradiction fun e => hx (Or.inl e)
    subst this
    exact .lost (fun e => hx (Or.inr e)) (ih (u ++ ['!']) (by simp))

/-! ### C128 -/

/-- C128, exactly what happens to any string: it is cut into pieces, only exclamation marks that are
not before an equals sign are lost; the tokens are the pieces without white space at their ends,
and no empty ones. -/
theorem C128_cut (path : Str) : ∃ ts, Cut path ts ∧ tokenize path = (ts.map strip).filter (fun t => decide (t ≠ [])) := by
  refine ⟨(tokenRe.findAll path).map (·.1), ?_, ?_⟩
  · rw [findAll_eq]; exact found_cut _ _ _ [] rfl
  · unfold tokenize; rw [List.map_map]; rfl

theorem cut_keeps : ∀ {s : Str} {ts : List Str}, Cut s ts → '!' ∉ s → ts.flatten = s := by
  intro s ts h
  induction h with
  | nil => intro _; rfl
  | lost => intro hn; exact absurd (by simp) hn
  | piece _ _ ih => intro hn; simp only [List.flatten_cons]; rw [ih (fun hm => hn (by simp [hm]))]

/-- C128 for paths without exclamation marks: nothing but white space is lost. -/
theorem C128_partial (path : Str) (h : '!' ∉ path) :
    ∃ ts : List Str, (∀ t ∈ ts, Piece t) ∧ ts.flatten = path ∧ tokenize path = (ts.map strip).filter (fun t => decide (t ≠ [])) := by
  obtain ⟨ts, h1, h2⟩ := C128_cut path
  refine ⟨ts, ?_, cut_keeps h1 h, h2⟩
  clear h h2
  induction h1 with
  | nil => intro t ht; cases ht
  | lost _ _ ih => exact ih
  | piece hp _ ih =>
    intro t ht
    rcases List.mem_cons.1 ht with rfl | ht
    · exact hp
    · exact ih t ht
end

section
attribute [local instance] asciiUni

/-- C128 is false with exclamation marks: a path with one too many finds the same as the path
without. -/
theorem C128_refuted : ∃ p q : Str, p ≠ q ∧ (∀ c ∈ p, Uni.isSpace c = false) ∧ tokenize p = tokenize q ∧
    ∀ (c : PCfg) (v : PV) (n : Nat), iterfindN c n v p = iterfindN c n v q := by
  have ht : tokenize (lit! "tier![@type=\"words\"]") = tokenize (lit! "tier[@type=\"words\"]") := by decide +kernel
  refine ⟨lit! "tier![@type=\"words\"]", lit! "tier[@type=\"words\"]", by decide, by decide, ht, fun c v n => ?_⟩
  cases n with
  | zero => rfl
  | succ n => unfold iterfindN; rw [ht]; rfl

/-- the hypothesis is met by a path with every kind of piece -/
example : '!' ∉ lit! "//tier[@type=\"a b\"] / item/text()" ∧
    tokenize (lit! "//tier[@type=\"a b\"] / item/text()") =
    [lit! "//", lit! "tier", lit! "[", lit! "@", lit! "type", lit! "=", lit! "\"a b\"", lit! "]", lit! "/", lit! "item", lit! "/", lit! "text", lit! "(", lit! ")"] := by
  decide +kernel
end

end Xigt.XP
