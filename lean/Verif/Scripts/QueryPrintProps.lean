import Verif.Scripts.QueryPrint
import Verif.Scripts.FormatLemmas
import Verif.Import.NumLemmas
import Verif.Xml.Indent
/-
C84, C85, C86: descriptions, agenda and table of `xigt query`.
-/
set_option linter.unusedSectionVars false
set_option linter.unusedSimpArgs false

namespace Xigt.Qry
open Fmt

/-! ### Specification -/

/-- parts of a description: text, and fields to be filled in -/
inductive Piece where
  | lit (s : Str)
  | field (f : Field)
  deriving DecidableEq

/-- no braces -/
def Plain' (s : Str) : Prop := ∀ c ∈ s, c ≠ '{' ∧ c ≠ '}'

/-- fields have no braces inside them (so none in their specification) and no indices -/
def Piece.OK : Piece → Prop
  | .lit _ => True
  | .field f => (∀ c ∈ f.name, c ≠ '{' ∧ c ≠ '}' ∧ c ≠ '[' ∧ c ≠ ':' ∧ c ≠ '!') ∧ Plain' f.spec ∧
      ∀ c, f.conv = some c → c ≠ '{' ∧ c ≠ '}'

/-- how they are written: braces in texts twice -/
def Piece.render : Piece → Str
  | .lit s => s.flatMap fun c => if c = '{' then lit! "{{" else if c = '}' then lit! "}}" else [c]
  | .field f => '{' :: f.name ++ (match f.conv with | none => [] | some c => ['!', c]) ++
      (if f.spec = [] then [] else ':' :: f.spec) ++ ['}']

def renderAll (ps : List Piece) : Str := ps.flatMap Piece.render

/-- `r` is what becomes of the parts if `shows` tells the texts of the fields -/
inductive Fills (shows : Field → Str → Prop) : List Piece → Str → Prop
  | nil : Fills shows [] []
  | lit (s) {ps r} : Fills shows ps r → Fills shows (.lit s :: ps) (s ++ r)
  | field {f t ps r} : shows f t → Fills shows ps r → Fills shows (.field f :: ps) (t ++ r)

/-- the text of a field with a name among `vals`; the name ends at the first `.` -/
def Shows (vals : List (Str × Val)) (f : Field) (t : Str) : Prop :=
  ∃ k r v, f.name = k ++ r ∧ '.' ∉ k ∧ (r = [] ∨ ∃ r', r = '.' :: r') ∧ Dict.get? vals k = some v ∧ v r f.conv f.spec = .ok t

/-! ### C84 -/

theorem plain_iff {s : Str} : Plain' s ↔ ∀ c ∈ s, notBrace c = true := by
  simp only [Plain', notBrace, Bool.and_eq_true, bne_iff_ne, ne_eq]

theorem OK.field {f : Field} (h : (Piece.field f).OK) : f.OK := by
  obtain ⟨h1, h2, h3⟩ := h
  refine ⟨fun c hc => ?_, plain_iff.1 h2⟩
  have := h1 c hc
  simp [nameChar, notBrace, this]

theorem OK.inner {f : Field} (h : (Piece.field f).OK) : ∀ c ∈ f.inner, notBrace c = true := by
  obtain ⟨h1, h2, h3⟩ := h
  obtain ⟨name, conv, spec⟩ := f
  intro c hc
  simp only [Field.inner, List.mem_append] at hc
  rcases hc with (hc | hc) | hc
  · have := h1 c hc
    simp [notBrace, this]
  · cases conv with
    | none => simp at hc
    | some v =>
      have := h3 v rfl
      simp only [List.mem_cons, List.not_mem_nil, or_false] at hc
      rcases hc with hc | hc
      · subst hc; decide
      · subst hc; simp [notBrace, this]
  · split at hc
    · simp at hc
    · rw [List.mem_cons] at hc
      rcases hc with hc | hc
      · subst hc; decide
      · exact plain_iff.1 h2 c hc

theorem render_field (f : Field) : (Piece.field f).render = '{' :: (f.inner ++ ['}']) := by
  obtain ⟨name, conv, spec⟩ := f
  cases conv <;> simp [Piece.render, Field.inner]

theorem render_lit (s : Str) : (Piece.lit s).render = esc s := by
  simp only [Piece.render, esc]
  congr 1
  funext c
  by_cases h : c = '{'
  · subst h; rfl
  · by_cases h' : c = '}'
    · subst h'; rfl
    · simp [h, h']

theorem first_rest (n : Str) : n = first n ++ rest n := (List.takeWhile_append_dropWhile ..).symm

theorem shows_iff {vals : List (Str × Val)} {f : Field} (h : (Piece.field f).OK) {t : Str} :
    Shows vals f t ↔ ∃ v, Dict.get? vals (first f.name) = some v ∧ v (rest f.name) f.conv f.spec = .ok t := by
  constructor
  · rintro ⟨k, r, v, hn, hk, hr, hv, ht⟩
    have hp : ∀ c ∈ k, (c != '[' && c != '.') = true := by
      intro c hc
      have h1 := h.1 c (by rw [hn]; simp [hc])
      have h2 : c ≠ '.' := fun e => hk (e ▸ hc)
      simp [h1, h2]
    have hr' : r.takeWhile (fun c => c != '[' && c != '.') = [] ∧ r.dropWhile (fun c => c != '[' && c != '.') = r := by
      rcases hr with hr | ⟨r', hr⟩ <;> subst hr <;> simp
    have hf : first f.name = k := by
      rw [first, hn, List.takeWhile_append_of_pos hp, hr'.1, List.append_nil]
    have hre : rest f.name = r := by
      rw [rest, hn, List.dropWhile_append_of_pos hp, hr'.2]
    rw [hf, hre]
    exact ⟨v, hv, ht⟩
  · rintro ⟨v, hv, ht⟩
    refine ⟨first f.name, rest f.name, v, first_rest _, ?_, ?_, hv, ht⟩
    · intro hm
      have : ∀ (l : Str), '.' ∉ l.takeWhile fun c => c != '[' && c != '.' := by
        intro l
        induction l with
        | nil => simp
        | cons c l ih =>
          rw [List.takeWhile_cons]
          split
          · rename_i hc
            rw [List.mem_cons]
            rintro (rfl | h)
            · simp at hc
            · exact ih h
          · simp
      exact this _ hm
    · cases hr : rest f.name with
      | nil => exact .inl rfl
      | cons c r =>
        right
        have h1 : (c != '[' && c != '.') = false := by
          have := List.head?_dropWhile_not (fun c => c != '[' && c != '.') f.name
          rw [rest] at hr
          rw [hr] at this
          simpa using this
        have h2 : c ∈ f.name := by rw [first_rest f.name, hr]; simp
        have h3 := (h.1 c h2).2.2.1
        have : c = '.' := by simpa [h3] using h1
        exact ⟨r, by rw [this]⟩

/-- the specification of a field is not changed by formatting it -/
theorem expand_plain (env : Env) (expand : Str → Py Str) (args : Dict Str Val) {s : Str} (h : Plain' s) :
    fmtS env expand args s = .ok s := by
  have := fmtS_esc env expand args s []
  rw [esc_plain (plain_iff.1 h), List.append_nil] at this
  rw [this, fmtS_nil]
  simp [pre]

theorem vformat_fmtS (env : Env) (args : Dict Str Val) (s : Str) :
    vformat env args s = fmtS env (vformatD env args 2) args s := rfl

theorem strFormat_fmtS (env : Env) (args : Dict Str Val) (s : Str) :
    strFormat env args s = fmtS env (fun t => if '{' ∈ t then strFormatD env args 1 t else .ok t) args s := rfl

/-- `expand` keeps texts without braces -/
def Keeps (expand : Str → Py Str) : Prop := ∀ s, Plain' s → expand s = .ok s

theorem keeps_v (env : Env) (args : Dict Str Val) : Keeps (vformatD env args 2) := fun _ h => expand_plain _ _ _ h

theorem keeps_s (env : Env) (args : Dict Str Val) :
    Keeps (fun t => if '{' ∈ t then strFormatD env args 1 t else .ok t) := by
  intro s h
  have : '{' ∉ s := fun hm => (h _ hm).1 rfl
  simp [this]

theorem fieldText_ok {env : Env} {expand : Str → Py Str} (hk : Keeps expand) {args : Dict Str Val} {f : Field}
    (h : (Piece.field f).OK) {t : Str} : fieldText env expand args f = .ok t ↔ Shows args f t := by
  rw [shows_iff h, fieldText]
  cases hg : Dict.get? args (first f.name) with
  | none => simp
  | some v =>
    simp only [hk _ h.2.1, Option.some.injEq, exists_eq_left']

theorem andThen_ok {a b : Py Str} {r : Str} : andThen a b = .ok r ↔ ∃ x y, a = .ok x ∧ b = .ok y ∧ r = x ++ y := by
  cases a with
  | error e => simp [andThen]
  | ok x =>
    cases b with
    | error e => simp [andThen, pre]
    | ok y => simp [andThen, pre, eq_comm]

theorem pre_ok {a : Str} {b : Py Str} {r : Str} : pre a b = .ok r ↔ ∃ y, b = .ok y ∧ r = a ++ y := by
  cases b with
  | error e => simp [pre]
  | ok y => simp [pre, eq_comm]

/-- formatting a description fills its parts -/
theorem fmtS_fills {env : Env} {expand : Str → Py Str} (hk : Keeps expand) {args : Dict Str Val} :
    ∀ (ps : List Piece), (∀ p ∈ ps, p.OK) → ∀ r, fmtS env expand args (renderAll ps) = .ok r ↔ Fills (Shows args) ps r := by
  intro ps
  induction ps with
  | nil =>
    intro _ r
    show Except.ok [] = Except.ok r ↔ _
    constructor
    · intro h; cases h; exact .nil
    · intro h; cases h; rfl
  | cons p ps ih =>
    intro h r
    have hp := h p (by simp)
    have ih := ih fun p hp => h p (by simp [hp])
    show fmtS env expand args (p.render ++ renderAll ps) = .ok r ↔ _
    cases p with
    | lit s =>
      rw [render_lit, fmtS_esc, pre_ok]
      constructor
      · rintro ⟨y, h1, rfl⟩
        exact .lit s ((ih y).1 h1)
      · intro h
        cases h with
        | lit _ h => exact ⟨_, (ih _).2 h, rfl⟩
    | field f =>
      rw [render_field, List.cons_append, List.append_assoc]
      show fmtS env expand args ('{' :: (f.inner ++ '}' :: renderAll ps)) = .ok r ↔ _
      rw [fmtS_field _ _ _ (OK.field hp), andThen_ok]
      constructor
      · rintro ⟨x, y, h1, h2, rfl⟩
        exact .field ((fieldText_ok hk hp).1 h1) ((ih y).1 h2)
      · intro h
        cases h with
        | field h1 h2 => exact ⟨_, _, (fieldText_ok hk hp).2 h1, (ih _).2 h2, rfl⟩

/-- what `SafeFormatter` leaves in place: the fields that are not known become text -/
def keep (env : Env) (keys : List Str) : Piece → Piece
  | .lit s => .lit s
  | .field f => if first f.name = [] ∨ env.isdigit (first f.name) = true ∨ first f.name ∈ keys then .field f
      else .lit (Piece.field f).render

theorem guard_render (env : Env) (keys : List Str) : ∀ (ps : List Piece), (∀ p ∈ ps, p.OK) →
    guard env keys (renderAll ps) = .ok (renderAll (ps.map (keep env keys))) := by
  intro ps
  induction ps with
  | nil => intro _; rfl
  | cons p ps ih =>
    intro h
    have hp := h p (by simp)
    have ih := ih fun p hp => h p (by simp [hp])
    show guard env keys (p.render ++ renderAll ps) = .ok ((keep env keys p).render ++ renderAll (ps.map (keep env keys)))
    cases p with
    | lit s =>
      rw [render_lit, guard_esc, ih]
      rw [keep, render_lit]
      rfl
    | field f =>
      rw [render_field, List.cons_append, List.append_assoc]
      show guard env keys ('{' :: (f.inner ++ '}' :: renderAll ps)) = _
      rw [guard_field _ _ (OK.field hp), ih, keep, safeTok]
      simp only
      split
      · rw [render_field]
        simp [pre, esc]
      · rw [render_lit, render_field]
        have : esc ('{' :: (f.inner ++ ['}'])) = lit! "{{" ++ f.inner ++ lit! "}}" := by
          rw [esc_cons, esc_append, esc_plain (OK.inner hp)]
          rfl
        rw [this]
        simp [pre, esc]

theorem keep_ok (env : Env) (keys : List Str) {p : Piece} (h : p.OK) : (keep env keys p).OK := by
  cases p with
  | lit s => trivial
  | field f =>
    rw [keep]
    split
    · exact h
    · trivial

/-- `SafeFormatter`: texts stay, known fields are filled, all others stay as they are written -/
theorem safeFormat_ok (env : Env) (args : Dict Str Val) (ps : List Piece) (h : ∀ p ∈ ps, p.OK) (d : Str) :
    safeFormat env args (renderAll ps) = .ok d ↔ Fills (Shows args) (ps.map (keep env (Dict.keys args))) d := by
  rw [safeFormat_guard, guard_render _ _ _ h]
  simp only
  rw [vformat_fmtS, fmtS_fills (keeps_v _ _)]
  intro p hp
  obtain ⟨q, hq, rfl⟩ := List.mem_map.1 hp
  exact keep_ok _ _ (h q hq)

theorem get_keys {args : List (Str × Val)} {k : Str} {v : Val} (h : Dict.get? args k = some v) : k ∈ Dict.keys args := by
  induction args with
  | nil => cases h
  | cons p ps ih =>
    rw [Dict.get?] at h
    rw [Dict.keys, List.map_cons]
    split at h
    · rename_i e; simp [e]
    · exact List.mem_cons_of_mem _ (ih h)

theorem keys_get {args : List (Str × Val)} {k : Str} (h : k ∈ Dict.keys args) : ∃ v, Dict.get? args k = some v := by
  induction args with
  | nil => cases h
  | cons p ps ih =>
    rw [Dict.get?]
    split
    · exact ⟨_, rfl⟩
    · rename_i hne
      rcases List.mem_cons.1 h with h | h
      · exact absurd h.symm hne
      · exact ih h

/-- the texts of the parts of a description have no braces -/
def LitsPlain (ps : List Piece) : Prop := ∀ s, .lit s ∈ ps → Plain' s

/-- **C84** (partial): the description of a match is the description given, with query, subquery and match filled in.

Missing: descriptions with braces in their text, and query and subquery with braces (`C84_refuted_query`,
`C84_refuted_braces`); specifications with fields inside (`C84_refuted_nested`); indices (`{match[0]}`). -/
theorem C84_partial (env : QEnv) (a : Action) (v : Val) (ps : List Piece) (hps : ∀ p ∈ ps, p.OK) (hl : LitsPlain ps)
    (hd : env.isdigit MATCH = false)
    (hq : ∀ f t, .field f ∈ ps → Shows [(QUERY, env.str a.query), (SUBQUERY, env.str a.subquery)] f t → Plain' t) (r : Str) :
    (∃ d, describe env a (renderAll ps) = .ok d ∧ fillMatch env v d = .ok r) ↔
      Fills (Shows [(QUERY, env.str a.query), (SUBQUERY, env.str a.subquery), (MATCH, v)]) ps r := by
  let args : List (Str × Val) := [(QUERY, env.str a.query), (SUBQUERY, env.str a.subquery)]
  let all : List (Str × Val) := [(QUERY, env.str a.query), (SUBQUERY, env.str a.subquery), (MATCH, v)]
  simp only [describe, safeFormat_ok _ _ ps hps, fillMatch, strFormat_fmtS]
  have hks := keeps_s env.toEnv [(MATCH, v)]
  generalize (fun t => if '{' ∈ t then strFormatD env.toEnv [(MATCH, v)] 1 t else Except.ok t) = expand at hks ⊢
  have hget : ∀ k, Dict.get? all k = match Dict.get? args k with
      | some w => some w
      | none => Dict.get? [(MATCH, v)] k := by
    intro k
    simp only [all, args, Dict.get?]
    split
    · rfl
    · split <;> rfl
  show (∃ d, Fills (Shows args) (ps.map (keep env.toEnv (Dict.keys args))) d ∧ _) ↔ Fills (Shows all) ps r
  replace hq : ∀ f t, .field f ∈ ps → Shows args f t → Plain' t := hq
  clear_value args all
  induction ps generalizing r with
  | nil =>
    constructor
    · rintro ⟨d, h1, h2⟩
      cases h1
      rw [fmtS_nil] at h2
      cases h2
      exact .nil
    · intro h
      cases h
      exact ⟨[], .nil, rfl⟩
  | cons p ps ih =>
    have hp := hps p (by simp)
    have ih := fun r => ih (fun p hp => hps p (by simp [hp])) (fun s hs => hl s (by simp [hs])) r
      (fun f t hf => hq f t (by simp [hf]))
    -- a text without braces passes
    have pass : ∀ {x y : Str}, Plain' x → fmtS env.toEnv expand [(MATCH, v)] (x ++ y) = pre x (fmtS env.toEnv expand [(MATCH, v)] y) := by
      intro x y hx
      have := fmtS_esc env.toEnv expand [(MATCH, v)] x y
      rwa [esc_plain (plain_iff.1 hx)] at this
    rw [List.map_cons]
    cases p with
    | lit s =>
      have hs := hl s (by simp)
      rw [keep]
      constructor
      · rintro ⟨d, h1, h2⟩
        cases h1 with
        | lit _ h1 =>
          rw [pass hs, pre_ok] at h2
          obtain ⟨y, h2, rfl⟩ := h2
          exact .lit s ((ih y).1 ⟨_, h1, h2⟩)
      · intro h
        cases h with
        | lit _ h =>
          obtain ⟨d, h1, h2⟩ := (ih _).2 h
          exact ⟨s ++ d, .lit s h1, by rw [pass hs, h2]; rfl⟩
    | field f =>
      rw [keep]
      split
      · rename_i hk
        -- known, or a number
        have hsame : ∀ t, Shows args f t ↔ Shows all f t := by
          intro t
          rw [shows_iff hp, shows_iff hp, hget]
          cases hg : Dict.get? args (first f.name) with
          | some w => simp
          | none =>
            have h3 : first f.name ≠ MATCH := by
              intro e
              rcases hk with hk | hk | hk
              · rw [hk] at e; cases e
              · rw [e, hd] at hk; cases hk
              · obtain ⟨w, hw⟩ := keys_get hk
                rw [hg] at hw; cases hw
            simp [Dict.get?, Ne.symm h3]
        constructor
        · rintro ⟨d, h1, h2⟩
          cases h1 with
          | field h1 h1' =>
            rw [pass (hq f _ (by simp) h1), pre_ok] at h2
            obtain ⟨y, h2, rfl⟩ := h2
            exact .field ((hsame _).1 h1) ((ih y).1 ⟨_, h1', h2⟩)
        · intro h
          cases h with
          | field h1 h1' =>
            obtain ⟨d, h3, h4⟩ := (ih _).2 h1'
            have h5 := (hsame _).2 h1
            exact ⟨_ ++ d, .field h5 h3, by rw [pass (hq f _ (by simp) h5), h4]; rfl⟩
      · rename_i hk
        have hn : Dict.get? args (first f.name) = none := by
          cases hg : Dict.get? args (first f.name) with
          | none => rfl
          | some w => exact absurd (.inr (.inr (get_keys hg))) hk
        have hsame : ∀ t, Shows [(MATCH, v)] f t ↔ Shows all f t := by
          intro t
          rw [shows_iff hp, shows_iff hp, hget, hn]
        have step : ∀ y, fmtS env.toEnv expand [(MATCH, v)] ((Piece.field f).render ++ y) =
            andThen (fieldText env.toEnv expand [(MATCH, v)] f) (fmtS env.toEnv expand [(MATCH, v)] y) := by
          intro y
          rw [← fmtS_field _ _ _ (OK.field hp), render_field]
          simp
        constructor
        · rintro ⟨d, h1, h2⟩
          cases h1 with
          | lit _ h1 =>
            rw [step, andThen_ok] at h2
            obtain ⟨x, y, h2, h3, rfl⟩ := h2
            exact .field ((hsame _).1 ((fieldText_ok hks hp).1 h2)) ((ih y).1 ⟨_, h1, h3⟩)
        · intro h
          cases h with
          | field h1 h1' =>
            obtain ⟨d, h3, h4⟩ := (ih _).2 h1'
            refine ⟨_ ++ d, .lit _ h3, ?_⟩
            rw [step, andThen_ok]
            exact ⟨_, _, (fieldText_ok hks hp).2 ((hsame _).2 h1), h4, rfl⟩

/-- what the theorems need of Python: `format` of a string without specification is the string -/
structure Std (env : QEnv) : Prop where
  str : ∀ s c, c = none ∨ c = some 's' → env.str s [] c [] = .ok s
  digit : env.isdigit MATCH = false

def fQuery : Field := ⟨QUERY, none, []⟩
def fSubquery : Field := ⟨SUBQUERY, none, []⟩
def fMatch : Field := ⟨MATCH, some 's', []⟩

/-- the default descriptions, as parts -/
def defaultPieces : Action → List Piece
  | .tally _ _ => [.field fQuery, .lit ['\t'], .field fSubquery, .lit ['\t'], .field fMatch]
  | _ => [.field fQuery, .lit ['\t'], .field fMatch]

theorem default_render (a : Action) : a.default = renderAll (defaultPieces a) := by
  cases a <;> rfl

theorem default_ok (a : Action) : ∀ p ∈ defaultPieces a, p.OK := by
  have h : ∀ p ∈ ([.field fQuery, .lit ['\t'], .field fSubquery, .lit ['\t'], .field fMatch] : List Piece), p.OK := by
    intro p hp
    simp only [List.mem_cons, List.not_mem_nil, or_false] at hp
    have key : ∀ f : Field, (f.name.all fun c => c != '{' && c != '}' && c != '[' && c != ':' && c != '!') = true → f.spec = [] →
        (f.conv = none ∨ f.conv = some 's') → (Piece.field f).OK := by
      intro f h1 h2 h3
      refine ⟨fun c hc => ?_, ?_, ?_⟩
      · have := List.all_eq_true.1 h1 c hc
        simp only [Bool.and_eq_true, bne_iff_ne, ne_eq] at this
        exact ⟨this.1.1.1.1, this.1.1.1.2, this.1.1.2, this.1.2, this.2⟩
      · rw [h2]; intro c hc; cases hc
      · intro c hc
        rcases h3 with h3 | h3
        · rw [h3] at hc; cases hc
        · rw [h3] at hc; cases hc; decide
    rcases hp with rfl | rfl | rfl | rfl | rfl
    · exact key _ (by decide) rfl (.inl rfl)
    · trivial
    · exact key _ (by decide) rfl (.inl rfl)
    · trivial
    · exact key _ (by decide) rfl (.inr rfl)
  intro p hp
  apply h
  cases a with
  | tally q s => exact hp
  | _ =>
    simp only [defaultPieces, List.mem_cons, List.not_mem_nil, or_false] at hp
    rcases hp with rfl | rfl | rfl <;> simp

theorem shows_name {vals : List (Str × Val)} {f : Field} (hf : (Piece.field f).OK) (hn : '.' ∉ f.name) {t : Str} :
    Shows vals f t ↔ ∃ v, Dict.get? vals f.name = some v ∧ v [] f.conv f.spec = .ok t := by
  constructor
  · rintro ⟨k, r, v, h1, h2, h3, h4, h5⟩
    rcases h3 with rfl | ⟨r', rfl⟩
    · rw [List.append_nil] at h1
      rw [h1]
      exact ⟨v, h4, h5⟩
    · exact absurd (h1 ▸ by simp) hn
  · rintro ⟨v, h1, h2⟩
    exact ⟨f.name, [], v, by simp, hn, .inl rfl, h1, h2⟩

/-- the text before the match in the default descriptions -/
def lead (a : Action) : Str := match a with
  | .tally q s => q ++ '\t' :: s ++ ['\t']
  | .find q | .unique q | .count q => q ++ ['\t']

/-- **C84** with the default description: query, subquery if there is one, and match, separated by tabs. -/
theorem C84_default (env : QEnv) (he : Std env) (a : Action) (v : Val) (hq : Plain' a.query) (hs : Plain' a.subquery) (r : Str) :
    (∃ d, describe env a a.default = .ok d ∧ fillMatch env v d = .ok r) ↔
      ∃ t, v [] (some 's') [] = .ok t ∧ r = lead a ++ t := by
  have hok := default_ok a
  rw [default_render, C84_partial env a v _ hok ?_ he.digit ?_]
  · have hQ : ∀ t, Shows [(QUERY, env.str a.query), (SUBQUERY, env.str a.subquery), (MATCH, v)] fQuery t ↔ t = a.query := by
      intro t
      rw [shows_name (hok (.field fQuery) (by cases a <;> simp [defaultPieces])) (by decide)]
      simp only [fQuery, Dict.get?, if_true, Option.some.injEq, exists_eq_left', he.str _ _ (.inl rfl), Except.ok.injEq]
      exact eq_comm
    have hM : ∀ t, Shows [(QUERY, env.str a.query), (SUBQUERY, env.str a.subquery), (MATCH, v)] fMatch t ↔ v [] (some 's') [] = .ok t := by
      intro t
      rw [shows_name (hok (.field fMatch) (by cases a <;> simp [defaultPieces])) (by decide)]
      have h1 : QUERY ≠ MATCH := by decide
      have h2 : SUBQUERY ≠ MATCH := by decide
      simp only [fMatch, Dict.get?, h1, h2, if_true, if_false, Option.some.injEq, exists_eq_left']
    have three : ∀ b, Fills (Shows [(QUERY, env.str a.query), (SUBQUERY, env.str a.subquery), (MATCH, v)])
        [.field fQuery, .lit ['\t'], .field fMatch] b ↔ ∃ t, v [] (some 's') [] = .ok t ∧ b = a.query ++ ['\t'] ++ t := by
      intro b
      constructor
      · intro h
        cases h with
        | field h1 h =>
          cases h with
          | lit _ h =>
            cases h with
            | field h2 h =>
              cases h
              rw [hQ] at h1
              subst h1
              exact ⟨_, (hM _).1 h2, by simp⟩
      · rintro ⟨t, h1, rfl⟩
        have := Fills.field ((hQ _).2 rfl) (.lit ['\t'] (.field ((hM t).2 h1) .nil))
        simpa using this
    cases a with
    | tally q s =>
      have hS : ∀ t, Shows [(QUERY, env.str q), (SUBQUERY, env.str s), (MATCH, v)] fSubquery t ↔ t = s := by
        intro t
        rw [shows_name (hok (.field fSubquery) (by simp [defaultPieces])) (by decide)]
        have h1 : QUERY ≠ SUBQUERY := by decide
        simp only [fSubquery, Dict.get?, h1, if_true, if_false, Option.some.injEq, exists_eq_left', he.str _ _ (.inl rfl), Except.ok.injEq]
        exact eq_comm
      constructor
      · intro h
        cases h with
        | field h1 h =>
          cases h with
          | lit _ h =>
            cases h with
            | field h2 h =>
              cases h with
              | lit _ h =>
                cases h with
                | field h3 h =>
                  cases h
                  rw [hQ] at h1
                  have h2' := (hS _).1 h2
                  rw [h1, h2']
                  exact ⟨_, (hM _).1 h3, by simp [lead, Action.query]⟩
      · rintro ⟨t, h1, rfl⟩
        have := Fills.field ((hQ _).2 rfl) (.lit ['\t'] (.field ((hS _).2 rfl) (.lit ['\t'] (.field ((hM t).2 h1) .nil))))
        simpa [lead, Action.query, defaultPieces] using this
    | find q => exact three r
    | unique q => exact three r
    | count q => exact three r
  · intro s hs'
    have : s = ['\t'] := by
      cases a <;> simp [defaultPieces] at hs' <;> exact hs'
    subst this
    intro c hc
    simp only [List.mem_singleton] at hc
    subst hc; decide
  · intro f t hf ht
    rw [shows_name (hok _ hf) ?_] at ht
    · obtain ⟨w, h1, h2⟩ := ht
      have hf' : f = fQuery ∨ f = fSubquery ∨ f = fMatch := by
        cases a <;> simp [defaultPieces] at hf <;> rcases hf with h | h <;> simp [h]
      rcases hf' with rfl | rfl | rfl
      · simp only [fQuery, Dict.get?, if_true, Option.some.injEq] at h1 h2
        subst h1
        rw [he.str _ _ (.inl rfl)] at h2
        cases h2
        exact hq
      · have e : QUERY ≠ SUBQUERY := by decide
        simp only [fSubquery, Dict.get?, e, if_true, if_false, Option.some.injEq] at h1 h2
        subst h1
        rw [he.str _ _ (.inl rfl)] at h2
        cases h2
        exact hs
      · have e1 : QUERY ≠ MATCH := by decide
        have e2 : SUBQUERY ≠ MATCH := by decide
        simp [fMatch, Dict.get?, e1, e2] at h1
    · have hf' : f = fQuery ∨ f = fSubquery ∨ f = fMatch := by
        cases a <;> simp [defaultPieces] at hf <;> rcases hf with h | h <;> simp [h]
      rcases hf' with rfl | rfl | rfl <;> decide

/-! ### C85 -/

/-- the options for an action and the descriptions after it -/
def groupOpts (g : Action × List Str) : List Opt := .act g.1 :: g.2.map .description

theorem makeJob_append (env : QEnv) : ∀ (os os' : List Opt) (ag : List Agendum),
    makeJob env ag (os ++ os') = (makeJob env ag os).bind fun ag' => makeJob env ag' os' := by
  intro os
  induction os with
  | nil => intro os' ag; rfl
  | cons o os ih =>
    intro os' ag
    simp only [List.cons_append, makeJob, bind, Except.bind]
    cases addOpt env ag o with
    | error e => rfl
    | ok ag' => exact ih os' ag'

theorem makeJob_descs (env : QEnv) (a : Action) : ∀ (ds : List Str) (ag : List Agendum) (t : Str) (r : List Agendum),
    makeJob env (ag ++ [⟨a, t⟩]) (ds.map .description) = .ok r ↔
      ∃ t', r = ag ++ [⟨a, t'⟩] ∧ (∀ d ∈ ds, ∃ x, describe env a d = .ok x) ∧
        match ds.getLast? with
        | none => t' = t
        | some d => describe env a d = .ok t' := by
  intro ds
  induction ds with
  | nil =>
    intro ag t r
    simp only [List.map_nil, makeJob, Except.ok.injEq, List.getLast?_nil]
    constructor
    · rintro rfl; exact ⟨t, rfl, by simp, rfl⟩
    · rintro ⟨t', rfl, -, rfl⟩; rfl
  | cons d ds ih =>
    intro ag t r
    simp only [List.map_cons, makeJob, addOpt, List.getLast?_append, List.getLast?_singleton, Option.some_or,
      List.dropLast_concat, bind, Except.bind]
    cases hd : describe env a d with
    | error e =>
      simp only
      constructor
      · intro h; cases h
      · rintro ⟨t', -, h, -⟩
        obtain ⟨x, hx⟩ := h d (by simp)
        rw [hd] at hx; cases hx
    | ok x =>
      simp only
      rw [ih]
      have hl : (d :: ds).getLast? = some (ds.getLast?.getD d) := by
        rw [List.getLast?_cons]
      rw [hl]
      constructor
      · rintro ⟨t', rfl, h1, h2⟩
        refine ⟨t', rfl, ?_, ?_⟩
        · intro e he
          rcases List.mem_cons.1 he with rfl | he
          · exact ⟨x, hd⟩
          · exact h1 e he
        · cases hg : ds.getLast? with
          | none => rw [hg] at h2; simp only at h2; subst h2; exact hd
          | some e => rw [hg] at h2; exact h2
      · rintro ⟨t', rfl, h1, h2⟩
        refine ⟨t', rfl, fun e he => h1 e (by simp [he]), ?_⟩
        cases hg : ds.getLast? with
        | none =>
          rw [hg] at h2
          simp only [Option.getD_none] at h2
          rw [hd] at h2
          cases h2; rfl
        | some e => rw [hg] at h2; exact h2

/-- **C85** the agenda has an entry for each action, in order; its description is the last one given after the action
and before the next, or the default one, with query and subquery filled in; it fails exactly if filling in one fails. -/
theorem C85_agenda (env : QEnv) (gs : List (Action × List Str)) (agenda : List Agendum) :
    makeJob env [] (gs.flatMap groupOpts) = .ok agenda ↔
      All2 (fun g x => x.action = g.1 ∧ (∀ d ∈ g.1.default :: g.2, ∃ t, describe env g.1 d = .ok t) ∧
        describe env g.1 (g.2.getLast?.getD g.1.default) = .ok x.description) gs agenda := by
  suffices H : ∀ (gs : List (Action × List Str)) (ag r : List Agendum), makeJob env ag (gs.flatMap groupOpts) = .ok r ↔
      ∃ l, r = ag ++ l ∧ All2 (fun g x => x.action = g.1 ∧ (∀ d ∈ g.1.default :: g.2, ∃ t, describe env g.1 d = .ok t) ∧
        describe env g.1 (g.2.getLast?.getD g.1.default) = .ok x.description) gs l by
    rw [H]
    constructor
    · rintro ⟨l, rfl, h⟩; exact h
    · intro h; exact ⟨_, rfl, h⟩
  intro gs
  induction gs with
  | nil =>
    intro ag r
    simp only [List.flatMap_nil, makeJob, Except.ok.injEq]
    constructor
    · rintro rfl; exact ⟨[], by simp, .nil⟩
    · rintro ⟨l, rfl, h⟩; cases h; simp
  | cons g gs ih =>
    intro ag r
    rw [List.flatMap_cons, makeJob_append, groupOpts]
    simp only [makeJob, addOpt, bind, Except.bind]
    cases hd : describe env g.1 g.1.default with
    | error e =>
      constructor
      · intro h; cases h
      · rintro ⟨l, -, h⟩
        cases h with
        | cons h _ =>
          obtain ⟨x, hx⟩ := h.2.1 g.1.default (by simp)
          rw [hd] at hx; cases hx
    | ok t =>
      simp only
      constructor
      · intro h
        cases hm : makeJob env (ag ++ [⟨g.1, t⟩]) (g.2.map .description) with
        | error e => rw [hm] at h; cases h
        | ok ag' =>
          rw [hm] at h
          simp only at h
          obtain ⟨t', rfl, h1, h2⟩ := (makeJob_descs env g.1 g.2 ag t ag').1 hm
          obtain ⟨l, rfl, h3⟩ := (ih _ _).1 h
          refine ⟨⟨g.1, t'⟩ :: l, by simp, .cons ⟨rfl, ?_, ?_⟩ h3⟩
          · intro d hdm
            rcases List.mem_cons.1 hdm with rfl | hdm
            · exact ⟨t, hd⟩
            · exact h1 d hdm
          · cases hg : g.2.getLast? with
            | none => rw [hg] at h2; simp only at h2; subst h2; exact hd
            | some e => rw [hg] at h2; exact h2
      · rintro ⟨l, rfl, h⟩
        cases h with
        | @cons _ x _ l h h3 =>
          obtain ⟨h0, h1, h2⟩ := h
          have hm : makeJob env (ag ++ [⟨g.1, t⟩]) (g.2.map .description) = .ok (ag ++ [x]) := by
            rw [makeJob_descs]
            obtain ⟨xa, xd⟩ := x
            simp only at h0 h2
            subst h0
            refine ⟨xd, rfl, fun d hdm => h1 d (by simp [hdm]), ?_⟩
            cases hg : g.2.getLast? with
            | none => rw [hg] at h2; simp only [Option.getD_none] at h2; rw [hd] at h2; cases h2; rfl
            | some e => rw [hg] at h2; exact h2
          rw [hm]
          simp only
          rw [ih]
          exact ⟨l, by simp, h3⟩

/-- every list of options that begins with an action is of the form of `C85_agenda` -/
theorem C85_options (a : Action) (os : List Opt) : ∃ gs : List (Action × List Str), .act a :: os = gs.flatMap groupOpts := by
  suffices H : ∀ (os : List Opt) (a : Action) (ds : List Str), ∃ gs : List (Action × List Str),
      .act a :: ds.map .description ++ os = gs.flatMap groupOpts from H os a []
  intro os
  induction os with
  | nil => intro a ds; exact ⟨[(a, ds)], by simp [groupOpts]⟩
  | cons o os ih =>
    intro a ds
    cases o with
    | act b =>
      obtain ⟨gs, h⟩ := ih b []
      refine ⟨(a, ds) :: gs, ?_⟩
      rw [List.flatMap_cons, ← h]
      simp [groupOpts]
    | description d =>
      obtain ⟨gs, h⟩ := ih a (ds ++ [d])
      refine ⟨gs, ?_⟩
      rw [← h]
      simp

/-! ### C86 -/

theorem maxLen_le (rs : List (Nat × Str)) : ∀ p ∈ rs, (natStr p.1).length ≤ maxLen rs := by
  induction rs with
  | nil => intro p hp; cases hp
  | cons q rs ih =>
    intro p hp
    rw [maxLen]
    rcases List.mem_cons.1 hp with rfl | hp
    · omega
    · have := ih p hp; omega

theorem maxLen_mem (rs : List (Nat × Str)) (h : rs ≠ []) : ∃ p ∈ rs, (natStr p.1).length = maxLen rs := by
  induction rs with
  | nil => exact absurd rfl h
  | cons q rs ih =>
    rw [maxLen]
    by_cases hr : rs = []
    · subst hr; exact ⟨q, by simp, by simp [maxLen]⟩
    · obtain ⟨p, h1, h2⟩ := ih hr
      rcases Nat.le_total (natStr q.1).length (maxLen rs) with h3 | h3
      · exact ⟨p, by simp [h1], by omega⟩
      · exact ⟨q, by simp, by omega⟩

/-- **C86** the table has a line for each result, in order: a space, spaces, the number, a tab and the description;
the numbers end in the same column, and the longest one has a single space before it. -/
theorem C86_table (rs : List (Nat × Str)) : ∃ w, All2 (fun (p : Nat × Str) l => ∃ k, l = ' ' :: List.replicate k ' ' ++ natStr p.1 ++ '\t' :: p.2 ∧
      k + (natStr p.1).length = w) rs (resultLines rs) ∧ (rs ≠ [] → ∃ p ∈ rs, (natStr p.1).length = w) := by
  refine ⟨maxLen rs, ?_, maxLen_mem rs⟩
  have h := maxLen_le rs
  rw [resultLines]
  generalize maxLen rs = w at h
  induction rs with
  | nil => exact .nil
  | cons p rs ih =>
    refine .cons ⟨w - (natStr p.1).length, by simp [rjust], ?_⟩ (ih fun p hp => h p (by simp [hp]))
    have := h p (by simp)
    omega

section
variable [Uni]

theorem digits_tab : ∀ (a b x y : Str), (∀ c ∈ a, (Uni.digit c).isSome = true) → (∀ c ∈ b, (Uni.digit c).isSome = true) →
    a ++ '\t' :: x = b ++ '\t' :: y → a = b ∧ x = y := by
  have ht : Uni.digit '\t' = none := by rw [Uni.ascii_digit _ (by decide)]; rfl
  intro a
  induction a with
  | nil =>
    intro b x y _ hb h
    cases b with
    | nil => simp at h; exact ⟨rfl, h⟩
    | cons c b =>
      simp only [List.nil_append, List.cons_append, List.cons.injEq] at h
      have := hb c (by simp)
      rw [← h.1, ht] at this
      cases this
  | cons c a ih =>
    intro b x y ha hb h
    cases b with
    | nil =>
      simp only [List.nil_append, List.cons_append, List.cons.injEq] at h
      have := ha c (by simp)
      rw [h.1, ht] at this
      cases this
    | cons d b =>
      simp only [List.cons_append, List.cons.injEq] at h
      obtain ⟨h1, h2⟩ := ih b x y (fun c hc => ha c (by simp [hc])) (fun c hc => hb c (by simp [hc])) h.2
      exact ⟨by rw [h.1, h1], h2⟩

theorem spaces_digits : ∀ (j k : Nat) (a b x y : Str), (∀ c ∈ a, (Uni.digit c).isSome = true) → (∀ c ∈ b, (Uni.digit c).isSome = true) →
    List.replicate j ' ' ++ (a ++ '\t' :: x) = List.replicate k ' ' ++ (b ++ '\t' :: y) → a = b ∧ x = y := by
  have hs : Uni.digit ' ' = none := by rw [Uni.ascii_digit _ (by decide)]; rfl
  have key : ∀ (k : Nat) (a b x y : Str), (∀ c ∈ a, (Uni.digit c).isSome = true) →
      a ++ '\t' :: x ≠ List.replicate (k + 1) ' ' ++ (b ++ '\t' :: y) := by
    intro k a b x y ha h
    rw [List.replicate_succ] at h
    cases a with
    | nil =>
      simp only [List.nil_append, List.cons_append, List.cons.injEq] at h
      exact absurd h.1 (by decide)
    | cons c a =>
      simp only [List.cons_append, List.cons.injEq] at h
      have := ha c (by simp)
      rw [h.1, hs] at this
      cases this
  intro j
  induction j with
  | zero =>
    intro k a b x y ha hb h
    cases k with
    | zero => simp only [List.replicate_zero, List.nil_append] at h; exact digits_tab a b x y ha hb h
    | succ k => exact absurd h (key k a b x y ha)
  | succ j ih =>
    intro k a b x y ha hb h
    cases k with
    | zero => exact absurd h.symm (key j b a y x hb)
    | succ k =>
      rw [List.replicate_succ, List.replicate_succ, List.cons_append, List.cons_append] at h
      exact ih k a b x y ha hb (List.cons.inj h).2

/-- **C86** numbers and descriptions can be read back from the lines. -/
theorem C86_injective (rs rs' : List (Nat × Str)) (h : resultLines rs = resultLines rs') : rs = rs' := by
  rw [resultLines, resultLines] at h
  generalize maxLen rs = w at h
  generalize maxLen rs' = w' at h
  induction rs generalizing rs' with
  | nil =>
    cases rs' with
    | nil => rfl
    | cons p rs' => simp at h
  | cons p rs ih =>
    cases rs' with
    | nil => simp at h
    | cons q rs' =>
      simp only [List.map_cons] at h
      obtain ⟨h1, h2⟩ := List.cons.inj h
      rw [ih rs' h2]
      have h3 := (List.cons.inj h1).2
      simp only [rjust, List.append_eq, List.append_assoc] at h3
      obtain ⟨h4, h5⟩ := spaces_digits _ _ _ _ _ _ (natStr_digits p.1) (natStr_digits q.1) h3
      have h6 := natStr_inj h4
      rw [Prod.ext h6 h5]

end

/-! ### Concrete cases -/

section
attribute [local instance] asciiUni

/-- strings, None and groups as Python prints them; no attributes or specifications -/
def exVal (s : Str) : Val := fun r c sp => if r = [] ∧ (c = none ∨ c = some 's') ∧ sp = [] then .ok s else .error .valueError
def exText : HKey → Str
  | some s => s
  | none => lit! "None"
def exQ : QEnv where
  isdigit s := !s.isEmpty && s.all Uni.isDigit
  unknown s := if s.isEmpty || s.all Uni.isDigit then .indexError else .keyError
  str := exVal
  val
    | .str s => exVal s
    | .none => exVal (lit! "None")
    | _ => exVal (lit! "<object>")
  tup ks := exVal (join (lit! ", ") (ks.map exText))

theorem exQ_std : Std exQ := ⟨by intro s c hc; simp [exQ, exVal, hc], by decide⟩

/-- a description: `Query "{query}": {match} ({match!s})` -/
def exPieces : List Piece := [.lit (lit! "Query \""), .field fQuery, .lit (lit! "\": "), .field ⟨MATCH, none, []⟩, .lit (lit! " ("),
  .field fMatch, .lit (lit! ")")]
example : renderAll exPieces = lit! "Query \"{query}\": {match} ({match!s})" := by decide
example : describe exQ (.find (lit! "igt/@id")) (renderAll exPieces) = .ok (lit! "Query \"igt/@id\": {match} ({match!s})") := by decide +kernel
example : fillMatch exQ (exVal (lit! "i1")) (lit! "Query \"igt/@id\": {match} ({match!s})") = .ok (lit! "Query \"igt/@id\": i1 (i1)") := by
  decide +kernel
/-- the hypotheses of `C84_partial` hold -/
example : (∀ p ∈ exPieces, p.OK) ∧ LitsPlain exPieces ∧ exQ.isdigit MATCH = false := by
  have hp : ∀ s : Str, (s.all fun c => c != '{' && c != '}') = true → Plain' s := by
    intro s h c hc
    have := List.all_eq_true.1 h c hc
    simpa using this
  refine ⟨?_, ?_, by decide⟩
  · intro p hp'
    simp only [exPieces, List.mem_cons, List.not_mem_nil, or_false] at hp'
    rcases hp' with rfl | rfl | rfl | rfl | rfl | rfl | rfl
    · trivial
    · exact default_ok (.find []) (.field fQuery) (by simp [defaultPieces])
    · trivial
    · exact ⟨(default_ok (.find []) (.field fMatch) (by simp [defaultPieces])).1, (by intro c hc; cases hc), (by intro c hc; cases hc)⟩
    · trivial
    · exact default_ok (.find []) (.field fMatch) (by simp [defaultPieces])
    · trivial
  · intro s hs
    simp only [exPieces, List.mem_cons, List.not_mem_nil, or_false, Piece.lit.injEq, reduceCtorEq, false_or] at hs
    rcases hs with rfl | rfl | rfl | rfl <;> exact hp _ (by decide)

/-- **C84** refuted: braces in the query are taken for a field when the match is filled in; the action fails on its first match. -/
theorem C84_refuted_query : describe exQ (.find (lit! "item[value()=\"{x}\"]")) (lit! "{query}\t{match!s}") =
      .ok (lit! "item[value()=\"{x}\"]\t{match!s}") ∧
    fillMatch exQ (exVal (lit! "i1")) (lit! "item[value()=\"{x}\"]\t{match!s}") = .error .keyError := by
  constructor <;> decide +kernel

/-- **C84** refuted: braces written twice in a description, as format strings have them, are taken for a field. -/
theorem C84_refuted_braces : describe exQ (.find (lit! "igt")) (renderAll [.lit (lit! "set {a}: "), .field fMatch]) = .ok (lit! "set {a}: {match!s}") ∧
    fillMatch exQ (exVal (lit! "i1")) (lit! "set {a}: {match!s}") = .error .keyError := by
  constructor <;> decide +kernel

/-- **C84** refuted: a field in the specification of the match is looked up too early (and if it is the match itself, that fails). -/
theorem C84_refuted_nested : describe exQ (.find (lit! "igt")) (lit! "{match:{match}}") = .error .keyError := by decide +kernel

example : resultLines [(3, lit! "a"), (120, lit! "b"), (15, lit! "c")] = [lit! "   3\ta", lit! " 120\tb", lit! "  15\tc"] := by decide +kernel
example : (makeJob exQ [] [.act (.find (lit! "igt")), .act (.tally (lit! "a") (lit! "b")), .description (lit! "{query} {match}"), .description (lit! "x {match}")]).map
    (fun l => l.map Agendum.description) = .ok [lit! "igt\t{match!s}", lit! "x {match}"] := by decide +kernel

end
end Xigt.Qry
