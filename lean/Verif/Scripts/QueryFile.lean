import Verif.Scripts.QueryPrint
import Verif.Scripts.QueryProps
import Verif.Scripts.QueryPrintProps
/-
C96: everything `xigt query` prints for a file.
-/
set_option linter.unusedSectionVars false

namespace Xigt.Qry
open Fmt

/-! ### Specification -/

/-- `ls` are the lines printed for an agendum and `rs` its results -/
inductive Gives [Uni] (env : QEnv) (c : XP.PCfg) (xc : XP.PV) (d : Str) : Action → List Str → List (Nat × Str) → Prop
  /-- a line for each match -/
  | find {q ms ls} : XP.findall c xc q = .ok ms →
      All2 (fun m l => ∃ t, fillMatch env (env.val m) d = .ok t ∧ l = ' ' :: ' ' :: t) ms ls → Gives env c xc d (.find q) ls []
  /-- a result for each group -/
  | tally {q sub ms gs r rs} : XP.findall c xc q = .ok ms → Groups c sub ms gs → Tally gs r →
      (r.map Prod.snd).Pairwise (· ≥ ·) →
      All2 (fun p x => x.1 = p.2 ∧ fillMatch env (env.tup p.1) d = .ok x.2) r rs → Gives env c xc d (.tally q sub) [] rs
  /-- the number of different matches -/
  | unique {q ms ks t} {l : List (Option Str)} : XP.findall c xc q = .ok ms → Plains ms ks → l.Nodup → (∀ k, k ∈ l ↔ k ∈ ks) →
      fillMatch env (env.str []) d = .ok t → Gives env c xc d (.unique q) [] [(l.length, t)]
  /-- the number of matches -/
  | count {q ms t} : XP.findall c xc q = .ok ms → fillMatch env (env.str []) d = .ok t →
      Gives env c xc d (.count q) [] [(ms.length, t)]

/-- the lines and the results of an agenda, in order -/
inductive GivesAll [Uni] (env : QEnv) (c : XP.PCfg) (xc : XP.PV) : List Agendum → List Str → List (Nat × Str) → Prop
  | nil : GivesAll env c xc [] [] []
  | cons {a as l r ls rs} : Gives env c xc a.description a.action l r → GivesAll env c xc as ls rs →
      GivesAll env c xc (a :: as) (l ++ ls) (r ++ rs)

/-! ### Proofs -/

section
variable [Uni]

omit [Uni] in
theorem fillAll_all2 (env : QEnv) (d : Str) : ∀ (vs : List Fmt.Val) (ts : List Str),
    fillAll env d vs = .ok ts → All2 (fun v t => fillMatch env v d = .ok t) vs ts := by
  intro vs
  induction vs with
  | nil => intro ts h; simp [fillAll] at h; subst h; exact .nil
  | cons v vs ih =>
    intro ts h
    simp only [fillAll, bind, Except.bind] at h
    cases h1 : fillMatch env v d with
    | error e => simp [h1] at h
    | ok t =>
      rw [h1] at h
      cases h2 : fillAll env d vs with
      | error e => simp [h2] at h
      | ok ts' => simp [h2] at h; subst h; exact .cons h1 (ih _ h2)

omit [Uni] in
theorem all2_of_map {α β γ : Type} {R : β → γ → Prop} {f : α → β} : ∀ {l : List α} {m : List γ},
    All2 R (l.map f) m → All2 (fun a c => R (f a) c) l m := by
  intro l
  induction l with
  | nil => intro m h; cases h; exact .nil
  | cons x l ih => intro m h; cases h with
    | cons h1 h2 => exact .cons h1 (ih h2)

omit [Uni] in
theorem all2_to_map {α β γ : Type} {R : α → β → Prop} {S : α → γ → Prop} {g : β → γ} (hg : ∀ a b, R a b → S a (g b)) :
    ∀ {l : List α} {m : List β}, All2 R l m → All2 S l (m.map g) := by
  intro l
  induction l with
  | nil => intro m h; cases h; exact .nil
  | cons x l ih => intro m h; cases h with
    | cons h1 h2 => exact .cons (hg _ _ h1) (ih h2)

omit [Uni] in
theorem all2_zip {α : Type} {f : α → Nat} {R : α → Str → Prop} : ∀ {l : List α} {m : List Str},
    All2 R l m → All2 (fun a (x : Nat × Str) => x.1 = f a ∧ R a x.2) l ((l.map f).zip m) := by
  intro l
  induction l with
  | nil => intro m h; cases h; exact .nil
  | cons x l ih => intro m h; cases h with
    | cons h1 h2 => exact .cons ⟨rfl, h1⟩ (ih h2)

theorem processOne_gives (env : QEnv) (c : XP.PCfg) (xc : XP.PV) (a : Agendum) (ls : List Str) (rs : List (Nat × Str))
    (h : processOne env c xc a = .ok (ls, rs)) : Gives env c xc a.description a.action ls rs := by
  obtain ⟨act, d⟩ := a
  rw [processOne] at h
  cases act with
  | find q =>
    simp only [bind, Except.bind, findLines] at h
    cases h1 : XP.findall c xc q with
    | error e => simp [h1] at h
    | ok ms =>
      simp only [h1] at h
      cases h2 : fillAll env d (ms.map env.val) with
      | error e => simp [h2] at h
      | ok ts =>
        simp only [h2] at h
        cases h
        exact .find h1 (all2_to_map (fun a b h => ⟨b, h, rfl⟩) (all2_of_map (fillAll_all2 _ _ _ _ h2)))
  | tally q sub =>
    simp only [bind, Except.bind] at h
    cases h1 : tally c xc q sub with
    | error e => simp [h1] at h
    | ok r =>
      simp only [h1] at h
      cases h2 : fillAll env d (r.map fun p => env.tup p.1) with
      | error e => simp [h2] at h
      | ok ts =>
        simp only [h2] at h
        cases h
        obtain ⟨ms, gs, a1, a2, a3, _, a5⟩ := C51_tally_partial c xc q sub r h1
        exact .tally a1 a2 a3 a5 (all2_zip (f := Prod.snd) (all2_of_map (fillAll_all2 _ _ _ _ h2)))
  | unique q =>
    simp only [bind, Except.bind] at h
    cases h1 : unique c xc q with
    | error e => simp [h1] at h
    | ok n =>
      simp only [h1] at h
      cases h2 : fillMatch env (env.str []) d with
      | error e => simp [h2] at h
      | ok t =>
        simp only [h2] at h
        cases h
        cases h3 : XP.findall c xc q with
        | error e => simp [unique, h3, bind, Except.bind] at h1
        | ok ms =>
          by_cases hp : ∃ ks, Plains ms ks
          · obtain ⟨ks, hp⟩ := hp
            obtain ⟨n', h4, h5⟩ := C51_unique_partial c xc q ms ks h3 hp
            rw [h1] at h4; cases h4
            have hd : ∃ l : List (Option Str), l.Nodup ∧ ∀ k, k ∈ l ↔ k ∈ ks := by
              clear h5 hp
              induction ks with
              | nil => exact ⟨[], List.nodup_nil, by simp⟩
              | cons k ks ih =>
                obtain ⟨l, l1, l2⟩ := ih
                by_cases hk : k ∈ l
                · refine ⟨l, l1, fun j => ?_⟩
                  rw [List.mem_cons, ← l2]
                  constructor
                  · exact Or.inr
                  · rintro (rfl | h)
                    · exact hk
                    · exact h
                · exact ⟨k :: l, List.nodup_cons.2 ⟨hk, l1⟩, fun j => by rw [List.mem_cons, List.mem_cons, l2]⟩
            obtain ⟨l, l1, l2⟩ := hd
            rw [h5 l l1 l2]
            exact .unique h3 hp l1 l2 h2
          · rw [C51_unique_fails c xc q ms h3 hp] at h1; cases h1
  | count q =>
    simp only [bind, Except.bind] at h
    cases h1 : count c xc q with
    | error e => simp [h1] at h
    | ok n =>
      simp only [h1] at h
      cases h2 : fillMatch env (env.str []) d with
      | error e => simp [h2] at h
      | ok t =>
        simp only [h2] at h
        cases h
        cases h3 : XP.findall c xc q with
        | error e => simp [count, h3, bind, Except.bind] at h1
        | ok ms =>
          rw [C51_count c xc q ms h3] at h1; cases h1
          exact .count h3 h2

theorem processAgenda_gives (env : QEnv) (c : XP.PCfg) (xc : XP.PV) : ∀ (as : List Agendum) (ls : List Str) (rs : List (Nat × Str)),
    processAgenda env c xc as = .ok (ls, rs) → GivesAll env c xc as ls rs := by
  intro as
  induction as with
  | nil => intro ls rs h; simp [processAgenda] at h; obtain ⟨rfl, rfl⟩ := h; exact .nil
  | cons a as ih =>
    intro ls rs h
    simp only [processAgenda, bind, Except.bind] at h
    cases h1 : processOne env c xc a with
    | error e => simp [h1] at h
    | ok p =>
      simp only [h1] at h
      cases h2 : processAgenda env c xc as with
      | error e => simp [h2] at h
      | ok q =>
        simp only [h2] at h
        cases h
        exact .cons (processOne_gives _ _ _ _ _ _ h1) (ih _ _ h2)

/-- **C96**: whenever a file is queried without an exception, the lines printed are its heading, the lines of the
`find` actions, the aligned table of the results of all other actions in the order of the agenda, and an empty
line. -/
theorem C96_file (env : QEnv) (c : XP.PCfg) (fd fn : Str) (xc : XP.PV) (agenda : List Agendum) (out : List Str)
    (h : fileLines env c fd fn xc agenda = .ok out) :
    ∃ hd ls rs tab w, strFormat env.toEnv [(lit! "filename", env.str fn)] fd = .ok hd ∧
      GivesAll env c xc agenda ls rs ∧ out = [hd] ++ ls ++ tab ++ [[]] ∧
      All2 (fun (p : Nat × Str) l => ∃ k, l = ' ' :: List.replicate k ' ' ++ natStr p.1 ++ '\t' :: p.2 ∧
        k + (natStr p.1).length = w) rs tab ∧
      (rs ≠ [] → ∃ p ∈ rs, (natStr p.1).length = w) := by
  simp only [fileLines, bind, Except.bind] at h
  cases h1 : strFormat env.toEnv [(lit! "filename", env.str fn)] fd with
  | error e => simp [h1] at h
  | ok hd =>
    simp only [h1] at h
    cases h2 : processAgenda env c xc agenda with
    | error e => simp [h2] at h
    | ok p =>
      simp only [h2] at h
      cases h
      obtain ⟨w, h3, h4⟩ := C86_table p.2
      exact ⟨hd, p.1, p.2, _, w, rfl, processAgenda_gives _ _ _ _ _ _ h2, rfl, h3, h4⟩

end

section
attribute [local instance] asciiUni

/-- a file with four IGTs, queried in several ways -/
example : fileLines exQ exCfg (lit! "File {filename}:") (lit! "a.xml") (.node exCorpus [])
    [⟨.count (lit! "igt"), lit! "all {match}"⟩, ⟨.find (lit! "igt/@type"), lit! "t"⟩, ⟨.unique (lit! "igt/@type"), lit! "types"⟩] =
    .ok [lit! "File a.xml:", lit! "  t", lit! "  t", lit! "  t", lit! " 4\tall ", lit! " 2\ttypes", []] := by decide +kernel
end
end Xigt.Qry
