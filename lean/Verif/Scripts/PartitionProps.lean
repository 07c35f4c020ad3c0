import Verif.Scripts.PartitionModel
import Verif.Corpus.Props
import Verif.DictLemmas
import Verif.Path.Props
/-
C49: partitioning.
-/

set_option linter.unusedSectionVars false

namespace Xigt.Part

/-! ### Specification -/

/-- the elements without repetition, in the order of their first occurrences -/
def firsts {α : Type} [DecidableEq α] : List α → List α
  | [] => []
  | x :: xs => x :: (firsts xs).filter (fun y => decide (y ≠ x))

section
variable [Uni]

/-- the IGTs of the input files (each file once) that have a key -/
def withKey (env : PEnv) (file : Str → PFile) (infiles : List Str) (k : Option Str) : List Obj :=
  (firsts infiles).flatMap fun fn => (file fn).igts.filter fun x => decide (keyOf env (file fn) x = .ok k)

/-- `k` is the key of one of the IGTs -/
def Occurs (env : PEnv) (file : Str → PFile) (infiles : List Str) (k : Option Str) : Prop :=
  ∃ fn ∈ infiles, ∃ x ∈ (file fn).igts, keyOf env (file fn) x = .ok k

/-- all files can be read and all IGTs have keys -/
structure Readable (env : PEnv) (file : Str → PFile) (infiles : List Str) : Prop where
  load : ∀ fn ∈ infiles, env.load fn = .ok (file fn)
  key : ∀ fn ∈ infiles, ∀ x ∈ (file fn).igts, ∃ k, keyOf env (file fn) x = .ok k

/-! ### Lists -/

theorem mem_firsts {α : Type} [DecidableEq α] {l : List α} {x : α} : x ∈ firsts l ↔ x ∈ l := by
  induction l with
  | nil => simp [firsts]
  | cons a l ih =>
    simp only [firsts, List.mem_cons, List.mem_filter, ih, decide_eq_true_eq]
    by_cases h : x = a <;> simp [h]

theorem nodup_firsts {α : Type} [DecidableEq α] (l : List α) : (firsts l).Nodup := by
  induction l with
  | nil => simp [firsts]
  | cons a l ih =>
    rw [firsts, List.nodup_cons]
    exact ⟨by simp, ih.sublist List.filter_sublist⟩

theorem firsts_snoc {α : Type} [DecidableEq α] (l : List α) (x : α) :
    firsts (l ++ [x]) = if x ∈ l then firsts l else firsts l ++ [x] := by
  induction l with
  | nil => simp [firsts]
  | cons a l ih =>
    rw [List.cons_append, firsts, ih]
    by_cases h : x ∈ l
    · rw [if_pos h, if_pos (List.mem_cons_of_mem _ h), firsts]
    · rw [if_neg h]
      by_cases hx : x = a
      · subst hx; rw [if_pos (List.mem_cons_self ..), firsts, List.filter_append]; simp
      · rw [if_neg (by simp [hx, h]), firsts, List.filter_append]; simp [hx]

theorem firsts_filter {α : Type} [DecidableEq α] (p : α → Bool) (l : List α) :
    firsts (l.filter p) = (firsts l).filter p := by
  induction l with
  | nil => rfl
  | cons a l ih =>
    by_cases h : p a = true
    · rw [List.filter_cons_of_pos h, firsts, firsts, List.filter_cons_of_pos h, ih, List.filter_filter, List.filter_filter]
      congr 1
      apply List.filter_congr
      intro x _; rw [Bool.and_comm]
    · rw [List.filter_cons_of_neg h, firsts, List.filter_cons_of_neg h, ih, List.filter_filter]
      apply List.filter_congr
      intro x _
      by_cases hx : x = a
      · subst hx; simp [h]
      · simp [hx]

/-- repeating elements makes no difference -/
theorem firsts_flatMap {α : Type} [DecidableEq α] (n : α → Nat) (l : List α) (hn : ∀ x ∈ l, n x ≠ 0) :
    firsts (l.flatMap fun x => List.replicate (n x) x) = firsts l := by
  have key : ∀ (m : Nat) (a : α) (r : List α), firsts (List.replicate (m + 1) a ++ r) = a :: (firsts r).filter (fun y => decide (y ≠ a)) := by
    intro m a r
    induction m with
    | zero => simp [firsts]
    | succ m ih =>
      rw [List.replicate_succ, List.cons_append, firsts, ih]
      congr 1
      rw [List.filter_cons_of_neg (by simp), List.filter_filter]
      apply List.filter_congr
      intro x _; simp
  induction l with
  | nil => rfl
  | cons a l ih =>
    rw [List.flatMap_cons]
    obtain ⟨m, hm⟩ := Nat.exists_eq_succ_of_ne_zero (hn a (List.mem_cons_self ..))
    rw [hm, key, ih (fun x hx => hn x (List.mem_cons_of_mem _ hx)), firsts]

theorem perm_insert {α β : Type} [DecidableEq β] (f : α → β) (p : α) (g : β → List α) : ∀ (ks : List β), ks.Nodup → f p ∈ ks →
    (ks.flatMap fun k => if f p = k then p :: g k else g k).Perm (p :: ks.flatMap g) := by
  intro ks
  induction ks with
  | nil => intro _ h; cases h
  | cons k ks ih =>
    intro hn hm
    rw [List.nodup_cons] at hn
    rw [List.flatMap_cons, List.flatMap_cons]
    by_cases h : f p = k
    · rw [if_pos h]
      have : (ks.flatMap fun k => if f p = k then p :: g k else g k) = ks.flatMap g := by
        rw [List.flatMap_def, List.flatMap_def]
        congr 1
        apply List.map_congr_left
        intro x hx
        rw [if_neg]
        intro e
        exact hn.1 (by rw [← h, e]; exact hx)
      rw [this]; exact List.Perm.refl _
    · rw [if_neg h]
      rcases List.mem_cons.1 hm with e | hm
      · exact absurd e h
      · exact ((ih hn.2 hm).append_left (g k)).trans List.perm_middle

/-- sorting into classes -/
theorem perm_classes {α β : Type} [DecidableEq β] (f : α → β) (ks : List β) (hn : ks.Nodup) : ∀ (l : List α), (∀ p ∈ l, f p ∈ ks) →
    (ks.flatMap fun k => l.filter fun p => decide (f p = k)).Perm l := by
  intro l
  induction l with
  | nil => intro _; simp
  | cons p l ih =>
    intro h
    have e : (ks.flatMap fun k => (p :: l).filter fun p => decide (f p = k)) =
        ks.flatMap fun k => if f p = k then p :: (l.filter fun p => decide (f p = k)) else l.filter fun p => decide (f p = k) := by
      congr 1
      funext k
      rw [List.filter_cons]
      simp only [decide_eq_true_eq]
    rw [e]
    exact (perm_insert f p _ ks hn (h p (List.mem_cons_self ..))).trans ((ih fun q hq => h q (List.mem_cons_of_mem _ hq)).cons p)

theorem set_new {κ ν : Type} [DecidableEq κ] (d : Dict κ ν) (k : κ) (v : ν) (h : k ∉ d.keys) : d.set k v = d ++ [(k, v)] := by
  induction d with
  | nil => rfl
  | cons p d ih =>
    obtain ⟨k', v'⟩ := p
    simp only [Dict.keys, List.map_cons, List.mem_cons, not_or] at h
    rw [Dict.set, if_neg (fun e => h.1 e.symm), ih h.2]
    rfl

/-! ### The index -/

abbrev Event := Option Str × Str × Nat

/-- what the index says about the IGTs met so far -/
structure Inv (evs : List Event) (idx : Idx) : Prop where
  keys : idx.keys = firsts (evs.map fun e => e.1)
  files : ∀ k d, idx.get? k = some d → d.keys = firsts ((evs.filter fun e => decide (e.1 = k)).map fun e => e.2.1)
  sets : ∀ k d fn s, idx.get? k = some d → d.get? fn = some s → ∀ i, i ∈ s ↔ (k, fn, i) ∈ evs

theorem Inv.nil : Inv [] [] where
  keys := rfl
  files := by intro k d h; cases h
  sets := by intro k d fn s h; cases h

theorem Inv.add {evs : List Event} {idx : Idx} (h : Inv evs idx) (k : Option Str) (fn : Str) (i : Nat) :
    Inv (evs ++ [(k, fn, i)]) (idxAdd idx k fn i) := by
  have hk : idx.has k = true ↔ k ∈ evs.map fun e => e.1 := by rw [Dict.has_iff, h.keys, mem_firsts]
  have hnew : ∀ k', k' ∉ (evs.map fun e => e.1) → evs.filter (fun e => decide (e.1 = k')) = [] := by
    intro k' hk'
    rw [List.filter_eq_nil_iff]
    intro e he
    simp only [decide_eq_true_eq]
    rintro rfl
    exact hk' (List.mem_map_of_mem he)
  have hd : ((idx.get? k).getD []).keys = firsts ((evs.filter fun e => decide (e.1 = k)).map fun e => e.2.1) := by
    cases hg : idx.get? k with
    | some d => exact h.files k d hg
    | none =>
      have : k ∉ evs.map fun e => e.1 := by
        rw [← hk, (Dict.has_false_iff idx k).2 hg]; simp
      rw [hnew k this]; rfl
  constructor
  · rw [idxAdd]
    rw [Dict.keys_set, h.keys, List.map_append, List.map_cons, List.map_nil, firsts_snoc]
    by_cases hm : k ∈ evs.map fun e => e.1
    · rw [if_pos (hk.2 hm), if_pos hm]
    · rw [if_neg (fun e => hm (hk.1 e)), if_neg hm]
  · intro k' d' hg
    rw [idxAdd] at hg
    rw [Dict.get?_set] at hg
    rw [List.filter_append]
    by_cases hkk : k = k'
    · subst hkk
      rw [if_pos rfl] at hg
      obtain rfl := Option.some.inj hg
      rw [Dict.keys_set, hd]
      simp only [List.filter_cons, decide_true, if_true, List.filter_nil, List.map_append, List.map_cons, List.map_nil]
      rw [firsts_snoc]
      have : Dict.has ((idx.get? k).getD []) fn = true ↔ fn ∈ (evs.filter fun e => decide (e.1 = k)).map fun e => e.2.1 := by
        rw [Dict.has_iff, hd, mem_firsts]
      by_cases hm : fn ∈ (evs.filter fun e => decide (e.1 = k)).map fun e => e.2.1
      · rw [if_pos (this.2 hm), if_pos hm]
      · rw [if_neg (fun e => hm (this.1 e)), if_neg hm]
    · rw [if_neg hkk] at hg
      rw [h.files k' d' hg]
      simp [hkk]
  · intro k' d' fn' s' hg hs j
    rw [idxAdd] at hg
    rw [Dict.get?_set] at hg
    rw [List.mem_append, List.mem_singleton]
    by_cases hkk : k = k'
    · subst hkk
      rw [if_pos rfl] at hg
      obtain rfl := Option.some.inj hg
      rw [Dict.get?_set] at hs
      by_cases hf : fn = fn'
      · subst hf
        rw [if_pos rfl] at hs
        obtain rfl := Option.some.inj hs
        have hold : j ∈ (((idx.get? k).getD []).get? fn).getD [] ↔ (k, fn, j) ∈ evs := by
          cases hg : idx.get? k with
          | none =>
            simp only [Option.getD_none, Dict.get?, List.not_mem_nil, false_iff]
            intro hm
            have : idx.has k = true := hk.2 (List.mem_map_of_mem (f := fun e : Event => e.1) hm)
            rw [(Dict.has_false_iff idx k).2 hg] at this
            cases this
          | some d =>
            simp only [Option.getD_some]
            cases hs : d.get? fn with
            | some s => simp only [Option.getD_some]; exact h.sets k d fn s hg hs j
            | none =>
              simp only [Option.getD_none, List.not_mem_nil, false_iff]
              intro hm
              rw [Dict.get?_eq_none_iff, h.files k d hg, mem_firsts] at hs
              exact hs (List.mem_map.2 ⟨(k, fn, j), List.mem_filter.2 ⟨hm, by simp⟩, rfl⟩)
        split
        · rw [hold]
          constructor
          · exact Or.inl
          · rintro (hm | hm)
            · exact hm
            · obtain rfl : j = i := by simpa using hm
              rw [← hold]; assumption
        · rw [List.mem_append, hold, List.mem_singleton]
          simp
      · rw [if_neg hf] at hs
        have hne : (k, fn', j) ≠ (k, fn, i) := by simp only [ne_eq, Prod.mk.injEq]; rintro ⟨-, rfl, -⟩; exact hf rfl
        cases hg : idx.get? k with
        | none => rw [hg] at hs; cases hs
        | some d =>
          rw [hg] at hs
          rw [h.sets k d fn' s' hg hs j]
          simp [hne]
    · rw [if_neg hkk] at hg
      rw [h.sets k' d' fn' s' hg hs j]
      have hne : (k', fn', j) ≠ (k, fn, i) := by simp only [ne_eq, Prod.mk.injEq]; rintro ⟨rfl, -⟩; exact hkk rfl
      simp [hne]

/-- the events of a file -/
inductive Events (env : PEnv) (fn : Str) (f : PFile) : Nat → List Obj → List Event → Prop
  | nil {i} : Events env fn f i [] []
  | cons {i x xs k es} : keyOf env f x = .ok k → Events env fn f (i + 1) xs es → Events env fn f i (x :: xs) ((k, fn, i) :: es)

/-- the events of files -/
inductive EventsAll (env : PEnv) : List Str → List Event → Prop
  | nil : EventsAll env [] []
  | cons {fn fns f es fs} : env.load fn = .ok f → Events env fn f 0 f.igts es → EventsAll env fns fs → EventsAll env (fn :: fns) (es ++ fs)

theorem indexLoop_ok {env : PEnv} {fn : Str} {f : PFile} : ∀ (xs : List Obj) (i : Nat) (idx idx' : Idx) (pre : List Event), Inv pre idx →
    indexLoop env fn f i xs idx = .ok idx' → ∃ es, Events env fn f i xs es ∧ Inv (pre ++ es) idx' := by
  intro xs
  induction xs with
  | nil =>
    intro i idx idx' pre h he
    rw [indexLoop] at he
    obtain rfl := Except.ok.inj he
    exact ⟨[], .nil, by simpa using h⟩
  | cons x xs ih =>
    intro i idx idx' pre h he
    rw [indexLoop] at he
    cases hk : keyOf env f x with
    | error e => rw [hk] at he; cases he
    | ok k =>
      rw [hk] at he
      obtain ⟨es, h1, h2⟩ := ih _ _ _ _ (h.add k fn i) he
      exact ⟨_, .cons hk h1, by simpa using h2⟩

theorem indexAll_ok {env : PEnv} : ∀ (fns : List Str) (idx idx' : Idx) (pre : List Event), Inv pre idx →
    indexAll env fns idx = .ok idx' → ∃ es, EventsAll env fns es ∧ Inv (pre ++ es) idx' := by
  intro fns
  induction fns with
  | nil =>
    intro idx idx' pre h he
    rw [indexAll] at he
    obtain rfl := Except.ok.inj he
    exact ⟨[], .nil, by simpa using h⟩
  | cons fn fns ih =>
    intro idx idx' pre h he
    rw [indexAll, index] at he
    cases hl : env.load fn with
    | error e => rw [hl] at he; cases he
    | ok f =>
      rw [hl] at he
      cases hi : indexLoop env fn f 0 f.igts idx with
      | error e => simp only [bind, Except.bind, hi] at he; cases he
      | ok idx1 =>
        simp only [bind, Except.bind, hi] at he
        obtain ⟨es, h1, h2⟩ := indexLoop_ok _ _ _ _ _ h hi
        obtain ⟨fs, h3, h4⟩ := ih _ _ _ h2 he
        exact ⟨es ++ fs, .cons hl h1 h3, by simpa using h4⟩

/-! ### The files -/

/-- what is read from a file -/
def fileD (env : PEnv) (fn : Str) : PFile :=
  match env.load fn with
  | .ok f => f
  | .error _ => ⟨.mk { cls := .corpus } [] [], []⟩

theorem fileD_ok {env : PEnv} {fn f} (h : env.load fn = .ok f) : fileD env fn = f := by rw [fileD, h]

theorem Events.key {env : PEnv} {fn f i xs es} (h : Events env fn f i xs es) : ∀ x ∈ xs, ∃ k, keyOf env f x = .ok k := by
  induction h with
  | nil => intro x hx; cases hx
  | cons h1 _ ih =>
    intro x hx
    rcases List.mem_cons.1 hx with rfl | hx
    · exact ⟨_, h1⟩
    · exact ih x hx

theorem Events.mem {env : PEnv} {fn f i xs es} (h : Events env fn f i xs es) (k : Option Str) (fn' : Str) (j : Nat) :
    (k, fn', j) ∈ es ↔ fn' = fn ∧ ∃ n x, j = i + n ∧ xs[n]? = some x ∧ keyOf env f x = .ok k := by
  induction h with
  | nil => simp
  | @cons i x xs k' es h1 _ ih =>
    rw [List.mem_cons, ih]
    constructor
    · rintro (h | ⟨rfl, n, y, rfl, h2, h3⟩)
      · simp only [Prod.mk.injEq] at h
        obtain ⟨rfl, rfl, rfl⟩ := h
        exact ⟨rfl, 0, x, rfl, rfl, h1⟩
      · exact ⟨rfl, n + 1, y, by omega, h2, h3⟩
    · rintro ⟨rfl, n, y, rfl, h2, h3⟩
      cases n with
      | zero =>
        obtain rfl := Option.some.inj h2
        rw [h1] at h3
        obtain rfl := Except.ok.inj h3
        exact Or.inl rfl
      | succ n => exact Or.inr ⟨rfl, n, y, by omega, h2, h3⟩

theorem Events.files {env : PEnv} {fn f i xs es} (h : Events env fn f i xs es) (k : Option Str) :
    (es.filter fun e => decide (e.1 = k)).map (fun e => e.2.1) =
      List.replicate (xs.filter fun x => decide (keyOf env f x = .ok k)).length fn := by
  induction h with
  | nil => rfl
  | @cons i x xs k' es h1 _ ih =>
    by_cases hk : k' = k
    · subst hk
      rw [List.filter_cons_of_pos (by simp), List.filter_cons_of_pos (by simp [h1]), List.map_cons, ih, List.length_cons, List.replicate_succ]
    · rw [List.filter_cons_of_neg (by simp [hk]), List.filter_cons_of_neg (by simp [h1, hk]), ih]

theorem EventsAll.readable {env : PEnv} {fns es} (h : EventsAll env fns es) : Readable env (fileD env) fns := by
  induction h with
  | nil => exact ⟨by simp, by simp⟩
  | cons h1 h2 _ ih =>
    constructor
    · intro fn hf
      rcases List.mem_cons.1 hf with rfl | hf
      · rw [fileD_ok h1, h1]
      · exact ih.load fn hf
    · intro fn hf
      rcases List.mem_cons.1 hf with rfl | hf
      · rw [fileD_ok h1]; exact h2.key
      · exact ih.key fn hf

theorem EventsAll.mem {env : PEnv} {fns es} (h : EventsAll env fns es) (k : Option Str) (fn : Str) (j : Nat) :
    (k, fn, j) ∈ es ↔ fn ∈ fns ∧ ∃ x, (fileD env fn).igts[j]? = some x ∧ keyOf env (fileD env fn) x = .ok k := by
  induction h with
  | nil => simp
  | @cons fn0 fns f es fs h1 h2 _ ih =>
    rw [List.mem_append, ih, h2.mem, List.mem_cons]
    constructor
    · rintro (⟨rfl, n, x, rfl, h3, h4⟩ | ⟨h3, h4⟩)
      · rw [fileD_ok h1]; exact ⟨Or.inl rfl, x, by rw [Nat.zero_add]; exact h3, h4⟩
      · exact ⟨Or.inr h3, h4⟩
    · rintro ⟨rfl | h3, x, h4, h5⟩
      · rw [fileD_ok h1] at h4 h5
        exact Or.inl ⟨rfl, j, x, by omega, h4, h5⟩
      · exact Or.inr ⟨h3, x, h4, h5⟩

theorem EventsAll.files {env : PEnv} {fns es} (h : EventsAll env fns es) (k : Option Str) :
    (es.filter fun e => decide (e.1 = k)).map (fun e => e.2.1) =
      fns.flatMap fun fn => List.replicate ((fileD env fn).igts.filter fun x => decide (keyOf env (fileD env fn) x = .ok k)).length fn := by
  induction h with
  | nil => rfl
  | cons h1 h2 _ ih => rw [List.filter_append, List.map_append, ih, h2.files, List.flatMap_cons, fileD_ok h1]

theorem flatMap_filter_nil {α β : Type} (p : α → Bool) (g : α → List β) (l : List α) (h : ∀ x, p x = false → g x = []) :
    (l.filter p).flatMap g = l.flatMap g := by
  induction l with
  | nil => rfl
  | cons a l ih =>
    by_cases hp : p a = true
    · rw [List.filter_cons_of_pos hp, List.flatMap_cons, List.flatMap_cons, ih]
    · rw [List.filter_cons_of_neg hp, List.flatMap_cons, ih, h a (by simpa using hp)]; rfl

theorem pick_eq {s : List Nat} {p : Obj → Bool} : ∀ (xs : List Obj) (i : Nat), (∀ n x, xs[n]? = some x → (i + n ∈ s ↔ p x = true)) →
    pick s i xs = xs.filter p := by
  intro xs
  induction xs with
  | nil => intro i _; rfl
  | cons x xs ih =>
    intro i h
    have h0 : i ∈ s ↔ p x = true := h 0 x rfl
    have ih' := ih (i + 1) fun n y hy => by rw [← h (n + 1) y hy]; simp [Nat.add_assoc, Nat.add_comm 1 n]
    rw [pick, ih', List.filter_cons]
    by_cases hp : p x = true
    · rw [if_pos (h0.2 hp), if_pos hp]
    · rw [if_neg (fun e => hp (h0.1 e)), if_neg hp]

/-- what is picked for a key -/
theorem picked {env : PEnv} {fns es idx k d} (h : EventsAll env fns es) (hi : Inv es idx) (hd : idx.get? k = some d) :
    d.flatMap (fun p => pick p.2 0 (fileD env p.1).igts) = withKey env (fileD env) fns k := by
  have h1 : d.WF := by rw [Dict.WF, hi.files k d hd]; exact nodup_firsts _
  have h2 : ∀ p ∈ d, pick p.2 0 (fileD env p.1).igts = (fileD env p.1).igts.filter fun x => decide (keyOf env (fileD env p.1) x = .ok k) := by
    rintro ⟨fn, s⟩ hp
    have hg := Dict.get?_of_mem h1 hp
    have hfn : fn ∈ fns := by
      have : fn ∈ d.keys := List.mem_map_of_mem (f := Prod.fst) hp
      rw [hi.files k d hd, mem_firsts, h.files, List.mem_flatMap] at this
      obtain ⟨x, hx, hm⟩ := this
      rw [(List.mem_replicate.1 hm).2]; exact hx
    apply pick_eq
    intro n x hx
    rw [Nat.zero_add, hi.sets k d fn s hd hg n, h.mem]
    simp only [decide_eq_true_eq]
    constructor
    · rintro ⟨-, y, hy, hk⟩
      simp only at hx
      rw [hx] at hy
      obtain rfl := Option.some.inj hy
      exact hk
    · intro hk; exact ⟨hfn, x, hx, hk⟩
  have h3 : d.flatMap (fun p => pick p.2 0 (fileD env p.1).igts) =
      d.keys.flatMap fun fn => (fileD env fn).igts.filter fun x => decide (keyOf env (fileD env fn) x = .ok k) := by
    rw [Dict.keys, List.flatMap_map, List.flatMap_def, List.flatMap_def]
    congr 1
    exact List.map_congr_left h2
  rw [h3, hi.files k d hd, h.files, withKey]
  rw [← flatMap_filter_nil (fun fn => !((fileD env fn).igts.filter fun x => decide (keyOf env (fileD env fn) x = .ok k)).isEmpty) _ fns,
    firsts_flatMap, firsts_filter, flatMap_filter_nil]
  · intro fn hf; simpa using hf
  · intro fn hf
    have := (List.mem_filter.1 hf).2
    simpa using this
  · intro fn hf
    have : ((fileD env fn).igts.filter fun x => decide (keyOf env (fileD env fn) x = .ok k)) = [] := by simpa using hf
    rw [this]; rfl

theorem corpusExtend_eq : ∀ (xs held h' : List Obj), corpusExtend held xs = .ok h' → h' = held ++ xs := by
  intro xs
  induction xs with
  | nil => intro held h' h; rw [corpusExtend] at h; simpa using (Except.ok.inj h).symm
  | cons x xs ih =>
    intro held h' h
    rw [corpusExtend, corpusAppend] at h
    split at h
    · cases h
    · rename_i h1 h2
      split at h2
      · cases h2
      · obtain rfl := Except.ok.inj h2
        rw [ih _ _ h]; simp

theorem collect_ok {env : PEnv} : ∀ (d : Dict Str (List Nat)) (held h' : List Obj), collect env d held = .ok h' →
    h' = held ++ d.flatMap fun p => pick p.2 0 (fileD env p.1).igts := by
  intro d
  induction d with
  | nil => intro held h' h; rw [collect] at h; simpa using (Except.ok.inj h).symm
  | cons p d ih =>
    obtain ⟨fn, s⟩ := p
    intro held h' h
    rw [collect] at h
    cases hl : env.load fn with
    | error e => rw [hl] at h; cases h
    | ok f =>
      simp only [bind, Except.bind, hl] at h
      cases hc : corpusExtend held (pick s 0 f.igts) with
      | error e => rw [hc] at h; cases h
      | ok h1 =>
        rw [hc] at h
        rw [ih _ _ h, corpusExtend_eq _ _ _ hc, List.flatMap_cons, fileD_ok hl]
        simp

/-- the output file for an entry of the index -/
def outEntry (env : PEnv) (p : Option Str × Dict Str (List Nat)) : Str × Obj :=
  (outName env p.1, newCorpus (p.2.flatMap fun q => pick q.2 0 (fileD env q.1).igts))

theorem writeAll_ok {env : PEnv} : ∀ (idx : Idx) (out out' : Dict Str Obj), writeAll env idx out = .ok out' →
    (out.keys ++ idx.keys.map (outName env)).Nodup → out' = out ++ idx.map (outEntry env) := by
  intro idx
  induction idx with
  | nil => intro out out' h _; rw [writeAll] at h; simpa using (Except.ok.inj h).symm
  | cons p idx ih =>
    obtain ⟨k, d⟩ := p
    intro out out' h hn
    rw [writeAll, write] at h
    cases hc : collect env d [] with
    | error e => rw [hc] at h; cases h
    | ok igts =>
      simp only [bind, Except.bind, hc] at h
      cases hd : env.dump (outName env k) (newCorpus igts) with
      | error e => rw [hd] at h; cases h
      | ok u =>
        rw [hd] at h
        simp only at h
        have hnew : outName env k ∉ out.keys := by
          intro hm
          rw [List.nodup_append] at hn
          exact hn.2.2 _ hm _ (by simp [Dict.keys]) rfl
        rw [set_new _ _ _ hnew] at h
        have := ih _ _ h (by simpa [Dict.keys] using hn)
        rw [this, collect_ok _ _ _ hc]
        simp [outEntry]

/-! ### The property -/

/-- **C49** (partial: the keys have different file names, see `C49_refuted`)  If partitioning ends
without an exception, there is a file for every key and no other file, the file for a key contains the
IGTs with the key in their order (those of every input file once), and altogether the files contain
every IGT once. -/
theorem C49_partial (env : PEnv) (infiles : List Str) (out : Dict Str Obj) (h : run env infiles = .ok out) :
    ∃ file, Readable env file infiles ∧
      ((∀ k k', Occurs env file infiles k → Occurs env file infiles k' → outName env k = outName env k' → k = k') →
        (∀ k, Occurs env file infiles k → ∃ y, out.get? (outName env k) = some y ∧ y.kids = withKey env file infiles k) ∧
        (∀ name ∈ out.keys, ∃ k, Occurs env file infiles k ∧ name = outName env k) ∧
        (out.flatMap fun p => p.2.kids).Perm ((firsts infiles).flatMap fun fn => (file fn).igts)) := by
  rw [run] at h
  cases hi : indexAll env infiles [] with
  | error e => rw [hi] at h; cases h
  | ok idx =>
    simp only [bind, Except.bind, hi] at h
    obtain ⟨es, h1, h2⟩ := indexAll_ok _ _ _ _ Inv.nil hi
    rw [List.nil_append] at h2
    have hocc : ∀ k, k ∈ idx.keys ↔ Occurs env (fileD env) infiles k := by
      intro k
      rw [h2.keys, mem_firsts, List.mem_map]
      constructor
      · rintro ⟨⟨k', fn, j⟩, he, rfl⟩
        obtain ⟨h3, x, h4, h5⟩ := (h1.mem _ _ _).1 he
        exact ⟨fn, h3, x, List.mem_of_getElem? h4, h5⟩
      · rintro ⟨fn, h3, x, h4, h5⟩
        obtain ⟨j, hj⟩ := List.getElem?_of_mem h4
        exact ⟨(k, fn, j), (h1.mem _ _ _).2 ⟨h3, x, hj, h5⟩, rfl⟩
    refine ⟨fileD env, h1.readable, fun hinj => ?_⟩
    have hkn : idx.keys.Nodup := by rw [h2.keys]; exact nodup_firsts _
    have hnn : (idx.keys.map (outName env)).Nodup := by
      rw [List.Nodup, List.pairwise_map]
      refine hkn.imp_of_mem ?_
      intro a b ha hb hne e
      exact hne (hinj a b ((hocc a).1 ha) ((hocc b).1 hb) e)
    have hout := writeAll_ok idx [] out h (by simpa [Dict.keys] using hnn)
    rw [List.nil_append] at hout
    have hok : out.keys = idx.keys.map (outName env) := by
      rw [hout, Dict.keys, Dict.keys, List.map_map, List.map_map]; rfl
    have hent : ∀ p ∈ idx, (outEntry env p).2 = newCorpus (withKey env (fileD env) infiles p.1) := by
      rintro ⟨k, d⟩ hp
      rw [outEntry]
      simp only
      rw [picked h1 h2 (Dict.get?_of_mem hkn hp)]
    refine ⟨?_, ?_, ?_⟩
    · intro k hk
      obtain ⟨⟨k', d⟩, hp, rfl⟩ := List.mem_map.1 ((hocc k).2 hk)
      have hm : outEntry env (k', d) ∈ out := by rw [hout]; exact List.mem_map_of_mem hp
      have hw : out.WF := by rw [Dict.WF, hok]; exact hnn
      refine ⟨_, Dict.get?_of_mem hw hm, ?_⟩
      exact congrArg Obj.kids (hent _ hp)
    · intro name hn
      rw [hok] at hn
      obtain ⟨k, hk, rfl⟩ := List.mem_map.1 hn
      exact ⟨k, (hocc k).1 hk, rfl⟩
    · have e1 : (out.flatMap fun p => p.2.kids) = idx.keys.flatMap fun k => withKey env (fileD env) infiles k := by
        rw [hout, Dict.keys, List.flatMap_map, List.flatMap_map, List.flatMap_def, List.flatMap_def]
        congr 1
        apply List.map_congr_left
        intro p hp
        rw [hent p hp]; rfl
      let all : List (PFile × Obj) := (firsts infiles).flatMap fun fn => (fileD env fn).igts.map fun x => (fileD env fn, x)
      let key : PFile × Obj → Py (Option Str) := fun p => keyOf env p.1 p.2
      have e2 : ∀ k, withKey env (fileD env) infiles k = (all.filter fun p => decide (key p = .ok k)).map Prod.snd := by
        intro k
        simp only [all, withKey, List.filter_flatMap, List.map_flatMap, List.filter_map, List.map_map]
        congr 1
        funext fn
        simp only [Function.comp_def, List.map_id', key]
      have e3 : ((firsts infiles).flatMap fun fn => (fileD env fn).igts) = all.map Prod.snd := by
        simp only [all, List.map_flatMap, List.map_map, Function.comp_def, List.map_id']
      rw [e1, e3]
      have hp := perm_classes (fun p => (key p).toOption) (idx.keys.map some) (by
        rw [List.Nodup, List.pairwise_map]; exact hkn.imp fun h e => h (Option.some.inj e)) all (by
        intro p hp
        obtain ⟨fn, hf, hp⟩ := List.mem_flatMap.1 hp
        obtain ⟨x, hx, rfl⟩ := List.mem_map.1 hp
        obtain ⟨k, hk⟩ := h1.readable.key fn (mem_firsts.1 hf) x hx
        exact List.mem_map.2 ⟨k, (hocc k).2 ⟨fn, mem_firsts.1 hf, x, hx, hk⟩, by simp [key, hk, Except.toOption]⟩)
      have := hp.map Prod.snd
      rw [List.map_flatMap, List.flatMap_map] at this
      refine List.Perm.trans (List.Perm.of_eq ?_) this
      rw [List.flatMap_def, List.flatMap_def]
      congr 1
      apply List.map_congr_left
      intro k _
      rw [e2]
      congr 1
      apply List.filter_congr
      intro p _
      cases hk : key p <;> simp [Except.toOption]

/-- the file names of keys are different if the keys contain neither `:` nor `/` (the default stands for
no key) -/
theorem C49_names (env : PEnv) (a b : Option Str) (h : outName env a = outName env b)
    (ha : ':' ∉ a.getD env.defaultKey) (hb : ':' ∉ b.getD env.defaultKey) (ha' : '/' ∉ a.getD env.defaultKey)
    (hb' : '/' ∉ b.getD env.defaultKey) : a.getD env.defaultKey = b.getD env.defaultKey := by
  have hid : ∀ s : Str, ':' ∉ s → normalizeKey s = s := by
    intro s hs
    rw [normalizeKey]
    conv => rhs; rw [← List.map_id s]
    apply List.map_congr_left
    intro c hc
    rw [if_neg]
    · rfl
    · rintro rfl; exact hs hc
  have hh : ∀ s : Str, '/' ∉ s → (s ++ lit! ".xml").head? ≠ some '/' := by
    intro s hs
    cases s with
    | nil => decide
    | cons c cs => intro e; apply hs; have : c = '/' := by simpa using e
                   rw [this]; exact List.mem_cons_self ..
  rw [outName, outName, hid _ ha, hid _ hb, pathJoin, pathJoin, if_neg (hh _ ha'), if_neg (hh _ hb')] at h
  split at h
  · exact List.append_cancel_right (List.append_cancel_left h)
  · exact List.append_cancel_right (List.cons.inj (List.append_cancel_left h)).2

/-! ### Success -/

theorem indexLoop_total {env : PEnv} {fn : Str} {f : PFile} : ∀ (xs : List Obj) (i : Nat) (idx : Idx),
    (∀ x ∈ xs, ∃ k, keyOf env f x = .ok k) → ∃ idx', indexLoop env fn f i xs idx = .ok idx' := by
  intro xs
  induction xs with
  | nil => intro i idx _; exact ⟨idx, rfl⟩
  | cons x xs ih =>
    intro i idx h
    obtain ⟨k, hk⟩ := h x (List.mem_cons_self ..)
    obtain ⟨idx', h'⟩ := ih (i + 1) (idxAdd idx k fn i) fun y hy => h y (List.mem_cons_of_mem _ hy)
    exact ⟨idx', by rw [indexLoop, hk]; exact h'⟩

theorem indexAll_total {env : PEnv} {file} : ∀ (fns : List Str) (idx : Idx), Readable env file fns → ∃ idx', indexAll env fns idx = .ok idx' := by
  intro fns
  induction fns with
  | nil => intro idx _; exact ⟨idx, rfl⟩
  | cons fn fns ih =>
    intro idx h
    obtain ⟨i1, h1⟩ := indexLoop_total (env := env) (fn := fn) (f := file fn) (file fn).igts 0 idx (h.key fn (List.mem_cons_self ..))
    obtain ⟨i2, h2⟩ := ih i1 ⟨fun f hf => h.load f (List.mem_cons_of_mem _ hf), fun f hf => h.key f (List.mem_cons_of_mem _ hf)⟩
    exact ⟨i2, by rw [indexAll, index, h.load fn (List.mem_cons_self ..)]; simp only [bind, Except.bind, h1, h2]⟩

theorem collect_total {env : PEnv} : ∀ (d : Dict Str (List Nat)) (held : List Obj), (∀ fn ∈ d.keys, ∃ f, env.load fn = .ok f) →
    UniqueIds (held ++ d.flatMap fun p => pick p.2 0 (fileD env p.1).igts) → ∃ h', collect env d held = .ok h' := by
  intro d
  induction d with
  | nil => intro held _ _; exact ⟨held, rfl⟩
  | cons p d ih =>
    obtain ⟨fn, s⟩ := p
    intro held hl hu
    obtain ⟨f, hf⟩ := hl fn (by simp [Dict.keys])
    rw [List.flatMap_cons, ← List.append_assoc, fileD_ok hf] at hu
    obtain ⟨h', he⟩ := ih _ (fun g hg => hl g (by simp [Dict.keys] at hg ⊢; exact Or.inr hg)) hu
    exact ⟨h', by rw [collect, hf]; simp only [bind, Except.bind, corpusExtend_ok _ _ (uniqueIds_append hu), he]⟩

theorem writeAll_total {env : PEnv} (hd : ∀ name x, env.dump name x = .ok ()) : ∀ (idx : Idx) (out : Dict Str Obj),
    (∀ p ∈ idx, ∃ h, collect env p.2 [] = .ok h) → ∃ out', writeAll env idx out = .ok out' := by
  intro idx
  induction idx with
  | nil => intro out _; exact ⟨out, rfl⟩
  | cons p idx ih =>
    obtain ⟨k, d⟩ := p
    intro out h
    obtain ⟨igts, hc⟩ := h (k, d) (List.mem_cons_self ..)
    obtain ⟨out', h'⟩ := ih (out.set (outName env k) (newCorpus igts)) fun q hq => h q (List.mem_cons_of_mem _ hq)
    exact ⟨out', by rw [writeAll, write]; simp only at hc; simp only [bind, Except.bind, hc, hd, h']⟩

/-- partitioning does end without an exception if the files can be read, the keys be found and the
output be written, and no ID is used twice in the input -/
theorem C49_succeeds (env : PEnv) (infiles : List Str) (file : Str → PFile) (h : Readable env file infiles)
    (hd : ∀ name x, env.dump name x = .ok ()) (hu : UniqueIds ((firsts infiles).flatMap fun fn => (file fn).igts)) :
    ∃ out, run env infiles = .ok out := by
  obtain ⟨idx, hi⟩ := indexAll_total infiles [] h
  obtain ⟨es, h1, h2⟩ := indexAll_ok _ _ _ _ Inv.nil hi
  rw [List.nil_append] at h2
  have hkn : Dict.WF idx := by rw [Dict.WF, h2.keys]; exact nodup_firsts _
  have hfile : ∀ fn ∈ infiles, fileD env fn = file fn := fun fn hf => fileD_ok (h.load fn hf)
  obtain ⟨out, ho⟩ := writeAll_total hd idx [] (by
    rintro ⟨k, d⟩ hp
    have hg := Dict.get?_of_mem hkn hp
    apply collect_total
    · intro fn hfn
      simp only at hfn
      rw [h2.files k d hg, mem_firsts, h1.files, List.mem_flatMap] at hfn
      obtain ⟨x, hx, hm⟩ := hfn
      rw [(List.mem_replicate.1 hm).2]
      exact ⟨_, h.load x hx⟩
    · simp only
      rw [List.nil_append, picked h1 h2 hg]
      have hsub : (withKey env (fileD env) infiles k).Sublist ((firsts infiles).flatMap fun fn => (file fn).igts) := by
        rw [withKey]
        have : ∀ l : List Str, (∀ fn ∈ l, fileD env fn = file fn) →
            (l.flatMap fun fn => (fileD env fn).igts.filter fun x => decide (keyOf env (fileD env fn) x = .ok k)).Sublist
              (l.flatMap fun fn => (file fn).igts) := by
          intro l
          induction l with
          | nil => intro _; simp
          | cons a l ih =>
            intro hl
            rw [List.flatMap_cons, List.flatMap_cons, hl a (List.mem_cons_self ..)]
            exact List.filter_sublist.append (ih fun f hf => hl f (List.mem_cons_of_mem _ hf))
        exact this _ fun fn hf => hfile fn (mem_firsts.1 hf)
      exact List.Nodup.sublist (hsub.filterMap _) hu)
  exact ⟨out, by rw [run, hi]; exact ho⟩

end

/-! ### Examples and refutations -/

section
attribute [local instance] asciiUni

def exIgt (i t : Str) : Obj := .mk { cls := .igt, id := some i, type := some t } [] []
def exFile1 : PFile := ⟨.mk { cls := .corpus } [] [], [exIgt (lit! "i1") (lit! "a"), exIgt (lit! "i2") (lit! "b"), exIgt (lit! "i3") (lit! "a")]⟩
def exFile2 : PFile := ⟨.mk { cls := .corpus } [] [], [exIgt (lit! "j1") (lit! "b")]⟩
def exEnv (f1 f2 : PFile) : PEnv where
  cfg := ⟨10, fun _ => [], fun _ => []⟩
  keyPath := lit! "@type"
  defaultKey := lit! "---"
  outdir := lit! "out"
  load fn := if fn = lit! "1" then .ok f1 else if fn = lit! "2" then .ok f2 else .error .parseError
  dump _ _ := .ok ()

/-- IDs of the IGTs in the output files -/
def outIds (r : Py (Dict Str Obj)) : Py (List (Str × List (Option Str))) :=
  r.map fun d => d.map fun p => (p.1, p.2.kids.map fun x => x.data.id)

/-- two files, the first given twice, two keys -/
example : outIds (run (exEnv exFile1 exFile2) [lit! "1", lit! "2", lit! "1"]) =
    .ok [(lit! "out/a.xml", [some (lit! "i1"), some (lit! "i3")]), (lit! "out/b.xml", [some (lit! "i2"), some (lit! "j1")])] := by
  decide +kernel

theorem exKey (f1 f2 f : PFile) (x : Obj) : keyOf (exEnv f1 f2) f x = .ok x.data.type := by
  have h : XP.find (exEnv f1 f2).cfg (.node x [f.root]) (exEnv f1 f2).keyPath = _ :=
    XP.C43_find_first _ _ _ _ (XP.C48_member _ _ _).2.1
  rw [keyOf, h]
  cases x.data.type <;> rfl

example : Readable (exEnv exFile1 exFile2) (fun fn => if fn = lit! "1" then exFile1 else exFile2) [lit! "1", lit! "2", lit! "1"] := by
  constructor
  · intro fn hf
    simp only [List.mem_cons, List.not_mem_nil, or_false] at hf
    rcases hf with rfl | rfl | rfl <;> rfl
  · intro fn _ x _
    exact ⟨_, exKey _ _ _ _⟩

example : outName (exEnv exFile1 exFile2) (some (lit! "a")) ≠ outName (exEnv exFile1 exFile2) (some (lit! "b")) := by decide

theorem outIds_ok {r : Py (Dict Str Obj)} {l} (h : outIds r = .ok l) : ∃ out, r = .ok out ∧
    (out.map fun p => (p.1, p.2.kids.map fun x => x.data.id)) = l := by
  cases r with
  | error e => cases h
  | ok out => exact ⟨out, rfl, Except.ok.inj h⟩

/-- C49 does not hold for all keys: `a:b` and `a-b` have the same file, the second overwrites the first -/
theorem C49_refuted : ∃ (env : PEnv) (fn : Str) (f : PFile), env.load fn = .ok f ∧ f.igts.length = 2 ∧
    ∃ out, run env [fn] = .ok out ∧ (out.flatMap fun p => p.2.kids).length = 1 := by
  let f : PFile := ⟨.mk { cls := .corpus } [] [], [exIgt (lit! "i1") (lit! "a:b"), exIgt (lit! "i2") (lit! "a-b")]⟩
  obtain ⟨out, h1, h2⟩ := outIds_ok (r := run (exEnv f f) [lit! "1"]) (l := [(lit! "out/a-b.xml", [some (lit! "i2")])]) (by decide +kernel)
  refine ⟨exEnv f f, lit! "1", f, rfl, rfl, out, h1, ?_⟩
  cases out with
  | nil => cases h2
  | cons p out =>
    cases out with
    | cons q out => simp at h2
    | nil =>
      have : p.2.kids.map (fun x => x.data.id) = [some (lit! "i2")] := (Prod.mk.inj (List.cons.inj h2).1).2
      have := congrArg List.length this
      simpa using this

/-- IGTs with the same ID in different files cannot be written to one file -/
theorem C49_refuted_ids : ∃ (env : PEnv) (f1 f2 : PFile), env.load (lit! "1") = .ok f1 ∧ env.load (lit! "2") = .ok f2 ∧
    UniqueIds f1.igts ∧ UniqueIds f2.igts ∧ (∃ out, run env [lit! "1"] = .ok out) ∧ (∃ out, run env [lit! "2"] = .ok out) ∧
    run env [lit! "1", lit! "2"] = .error .xigtError := by
  let f : PFile := ⟨.mk { cls := .corpus } [] [], [exIgt (lit! "i1") (lit! "a")]⟩
  obtain ⟨o1, h1, -⟩ := outIds_ok (r := run (exEnv f f) [lit! "1"]) (l := [(lit! "out/a.xml", [some (lit! "i1")])]) (by decide +kernel)
  obtain ⟨o2, h2, -⟩ := outIds_ok (r := run (exEnv f f) [lit! "2"]) (l := [(lit! "out/a.xml", [some (lit! "i1")])]) (by decide +kernel)
  have h3 : outIds (run (exEnv f f) [lit! "1", lit! "2"]) = .error .xigtError := by decide +kernel
  refine ⟨exEnv f f, f, f, rfl, rfl, by unfold UniqueIds; decide, by unfold UniqueIds; decide, ⟨o1, h1⟩, ⟨o2, h2⟩, ?_⟩
  cases hr : run (exEnv f f) [lit! "1", lit! "2"] with
  | ok o => rw [hr] at h3; cases h3
  | error e => rw [hr] at h3; exact congrArg _ (Except.error.inj h3)

end
end Xigt.Part
