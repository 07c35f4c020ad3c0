import Verif.Scripts.QueryModel
import Verif.DictLemmas
import Verif.Container.Lemmas
import Verif.Igt.SortProps
import Verif.Path.Props
/-
C51: the counts of `xigt query`.
-/
set_option linter.unusedSectionVars false

namespace Xigt.Qry

/-! ### Specification -/

/-- the strings and None in results -/
inductive Plain : XP.PV → Option Str → Prop
  | str (s) : Plain (.str s) (some s)
  | none : Plain .none none

/-- results that contain no objects, as strings and None -/
inductive Plains : List XP.PV → List (Option Str) → Prop
  | nil : Plains [] []
  | cons {v k vs ks} : Plain v k → Plains vs ks → Plains (v :: vs) (k :: ks)

/-- `gs` are the groups of the matches `ms`, none containing objects -/
inductive Groups [Uni] (c : XP.PCfg) (sub : Str) : List XP.PV → List (List (Option Str)) → Prop
  | nil : Groups c sub [] []
  | cons {m vs k ms gs} : XP.findall c m sub = .ok vs → Plains vs k → Groups c sub ms gs →
      Groups c sub (m :: ms) (k :: gs)

/-- `r` lists every element of `l` once, with its number of occurrences -/
structure Tally {κ : Type} [DecidableEq κ] (l : List κ) (r : List (κ × Nat)) : Prop where
  once : (r.map Prod.fst).Nodup
  exact : ∀ k n, (k, n) ∈ r ↔ k ∈ l ∧ n = l.count k
  total : (r.map Prod.snd).sum = l.length

/-! ### Counting -/

section
variable {κ : Type} [DecidableEq κ]

theorem sum_set (d : Dict κ Nat) (k : κ) (v : Nat) :
    ((Dict.set d k v).map Prod.snd).sum + (Dict.get? d k).getD 0 = (d.map Prod.snd).sum + v := by
  induction d with
  | nil => simp [Dict.set, Dict.get?]
  | cons p d ih =>
    obtain ⟨k', v'⟩ := p
    rw [Dict.set, Dict.get?]
    by_cases h : k' = k
    · simp [h]; omega
    · simp [h]; omega

theorem get_bump (d : Dict κ Nat) (k j : κ) :
    (Dict.get? (bump d k) j).getD 0 = (Dict.get? d j).getD 0 + if k = j then 1 else 0 := by
  rw [bump, Dict.get?_set]
  by_cases h : k = j
  · subst h; simp
  · simp [h]

theorem foldl_bump (l : List κ) : ∀ (d : Dict κ Nat) (j : κ),
    (Dict.get? (l.foldl bump d) j).getD 0 = (Dict.get? d j).getD 0 + l.count j := by
  induction l with
  | nil => intro d j; simp
  | cons k l ih =>
    intro d j
    rw [List.foldl_cons, ih, get_bump, List.count_cons]
    by_cases h : k = j <;> simp [h] <;> omega

theorem foldl_bump_sum (l : List κ) : ∀ (d : Dict κ Nat),
    ((l.foldl bump d).map Prod.snd).sum = (d.map Prod.snd).sum + l.length := by
  induction l with
  | nil => intro d; simp
  | cons k l ih =>
    intro d
    rw [List.foldl_cons, ih, List.length_cons]
    have := sum_set d k ((Dict.get? d k).getD 0 + 1)
    rw [← bump] at this
    omega

theorem foldl_bump_wf (l : List κ) : ∀ (d : Dict κ Nat), Dict.WF d → Dict.WF (l.foldl bump d) := by
  induction l with
  | nil => intro d h; exact h
  | cons k l ih => intro d h; exact ih _ (h.set _ _)

theorem foldl_bump_pos (l : List κ) : ∀ (d : Dict κ Nat), (∀ j n, Dict.get? d j = some n → 0 < n) →
    ∀ j n, Dict.get? (l.foldl bump d) j = some n → 0 < n := by
  induction l with
  | nil => intro d h; exact h
  | cons k l ih =>
    intro d h
    apply ih
    intro j n hj
    rw [bump, Dict.get?_set] at hj
    by_cases e : k = j
    · simp [e] at hj; omega
    · simp [e] at hj; exact h j n hj

theorem tally_counts (l : List κ) : Tally l (l.foldl bump []) := by
  have hwf := foldl_bump_wf l [] Dict.wf_nil
  have hget := foldl_bump l []
  have hpos := foldl_bump_pos l [] (by simp [Dict.get?])
  refine ⟨hwf, ?_, ?_⟩
  · intro k n
    have hg := hget k
    simp only [Dict.get?, Option.getD_none, Nat.zero_add] at hg
    constructor
    · intro h
      have h1 := Dict.get?_of_mem hwf h
      rw [h1] at hg
      simp at hg
      have := hpos k n h1
      exact ⟨List.count_pos_iff.1 (by omega), hg⟩
    · rintro ⟨h1, rfl⟩
      have := List.count_pos_iff.2 h1
      cases h2 : Dict.get? (l.foldl bump []) k with
      | none => rw [h2] at hg; simp at hg; omega
      | some m =>
        rw [h2] at hg
        simp at hg
        subst hg
        exact Dict.get?_mem h2
  · simpa using foldl_bump_sum l []

theorem tally_perm {l : List κ} {r r' : List (κ × Nat)} (hp : r'.Perm r) (h : Tally l r) : Tally l r' :=
  ⟨(hp.map Prod.fst).nodup_iff.2 h.once, fun k n => hp.mem_iff.trans (h.exact k n),
    ((hp.map Prod.snd).sum_nat).trans h.total⟩

/-- the number of entries of a tally is the number of different elements -/
theorem tally_length {l m : List κ} {r : List (κ × Nat)} (h : Tally l r) (hm : m.Nodup)
    (he : ∀ k, k ∈ m ↔ k ∈ l) : r.length = m.length := by
  have h1 : (r.map Prod.fst).Perm m := by
    rw [List.perm_ext_iff_of_nodup h.once hm]
    intro k
    rw [he]
    constructor
    · intro hk
      obtain ⟨p, hp, rfl⟩ := List.mem_map.1 hk
      exact ((h.exact p.1 p.2).1 hp).1
    · intro hk
      exact List.mem_map.2 ⟨(k, l.count k), (h.exact _ _).2 ⟨hk, rfl⟩, rfl⟩
  have := h1.length_eq
  simpa using this

end

/-! ### Hashes -/

theorem hashKey_ok {v k} (h : Plain v k) : hashKey v = .ok k := by cases h <;> rfl

theorem hashKey_plain {v : XP.PV} {k} (h : hashKey v = .ok k) : Plain v k := by
  cases v <;> simp [hashKey] at h <;> subst h
  · exact .str _
  · exact .none

theorem hashTuple_ok {vs ks} (h : Plains vs ks) : hashTuple vs = .ok ks := by
  induction h with
  | nil => rfl
  | cons h _ ih => simp only [hashTuple, bind, Except.bind, hashKey_ok h, ih]

theorem hashTuple_plain {vs : List XP.PV} : ∀ {ks}, hashTuple vs = .ok ks → Plains vs ks := by
  induction vs with
  | nil => intro ks h; simp [hashTuple] at h; subst h; exact .nil
  | cons v vs ih =>
    intro ks h
    simp only [hashTuple, bind, Except.bind] at h
    cases h1 : hashKey v with
    | error e => simp [h1] at h
    | ok k =>
      rw [h1] at h
      cases h2 : hashTuple vs with
      | error e => simp [h2] at h
      | ok ks' => simp [h2] at h; subst h; exact .cons (hashKey_plain h1) (ih h2)

theorem hashTuple_err {vs : List XP.PV} {e} (h : hashTuple vs = .error e) : e = .typeError := by
  induction vs with
  | nil => simp [hashTuple] at h
  | cons v vs ih =>
    simp only [hashTuple, bind, Except.bind] at h
    cases h1 : hashKey v with
    | error e' => cases v <;> simp [hashKey] at h1 <;> subst h1 <;> simp [hashKey] at h <;> exact h.symm
    | ok k =>
      rw [h1] at h
      cases h2 : hashTuple vs with
      | error e' => simp [h2] at h; subst h; exact ih h2
      | ok ks' => simp [h2] at h

section
variable [Uni]

theorem tallyLoop_ok {c sub ms gs} (h : Groups c sub ms gs) : ∀ d,
    tallyLoop c sub ms d = .ok (gs.foldl bump d) := by
  induction h with
  | nil => intro d; rfl
  | cons h1 h2 _ ih =>
    intro d
    simp only [tallyLoop, bind, Except.bind, h1, hashTuple_ok h2, ih, List.foldl_cons]

theorem tallyLoop_groups {c sub} : ∀ (ms : List XP.PV) d r, tallyLoop c sub ms d = .ok r →
    ∃ gs, Groups c sub ms gs := by
  intro ms
  induction ms with
  | nil => intro d r _; exact ⟨[], .nil⟩
  | cons m ms ih =>
    intro d r h
    simp only [tallyLoop, bind, Except.bind] at h
    cases h1 : XP.findall c m sub with
    | error e => simp [h1] at h
    | ok vs =>
      rw [h1] at h
      simp only at h
      cases h2 : hashTuple vs with
      | error e => simp [h2] at h
      | ok k =>
        rw [h2] at h
        obtain ⟨gs, hg⟩ := ih _ _ h
        exact ⟨_, .cons h1 (hashTuple_plain h2) hg⟩

theorem counter_ok {ms ks} (h : Plains ms ks) : ∀ d, counter ms d = .ok (ks.foldl bump d) := by
  induction h with
  | nil => intro d; rfl
  | cons h _ ih => intro d; simp only [counter, bind, Except.bind, hashKey_ok h, ih, List.foldl_cons]

theorem counter_plains : ∀ (ms : List XP.PV) d r, counter ms d = .ok r → ∃ ks, Plains ms ks := by
  intro ms
  induction ms with
  | nil => intro d r _; exact ⟨[], .nil⟩
  | cons m ms ih =>
    intro d r h
    simp only [counter, bind, Except.bind] at h
    cases h1 : hashKey m with
    | error e => simp [h1] at h
    | ok k =>
      rw [h1] at h
      obtain ⟨ks, hk⟩ := ih _ _ h
      exact ⟨_, .cons (hashKey_plain h1) hk⟩

/-- **C51** (partial), tally: whenever a result is given, the groups of the matches contain no
objects, every group is listed once with its number of matches, these numbers sum to the number of
matches, and they are in descending order.

Missing: groups that contain objects; for these the script fails (`C51_refuted`). -/
theorem C51_tally_partial (c : XP.PCfg) (xc : XP.PV) (query sub : Str) (r : List (List (Option Str) × Nat))
    (h : tally c xc query sub = .ok r) :
    ∃ ms gs, XP.findall c xc query = .ok ms ∧ Groups c sub ms gs ∧ Tally gs r ∧
      (r.map Prod.snd).sum = ms.length ∧ (r.map Prod.snd).Pairwise (· ≥ ·) := by
  simp only [tally, bind, Except.bind] at h
  cases h1 : XP.findall c xc query with
  | error e => simp [h1] at h
  | ok ms =>
    rw [h1] at h
    simp only at h
    cases h2 : tallyLoop c sub ms [] with
    | error e => simp [h2] at h
    | ok d =>
      rw [h2] at h
      injection h with h
      obtain ⟨gs, hg⟩ := tallyLoop_groups ms [] d h2
      have h3 := tallyLoop_ok hg []
      rw [h2] at h3
      injection h3 with h3
      subst h3
      have ht : Tally gs r := by
        rw [← h]
        exact tally_perm (sortBy_perm _ _) (tally_counts gs)
      have hlen : gs.length = ms.length := by
        clear h h1 h2 ht
        induction hg with
        | nil => rfl
        | cons _ _ _ ih => simp [ih]
      refine ⟨ms, gs, rfl, hg, ht, ht.total.trans hlen, ?_⟩
      rw [List.pairwise_map, ← h]
      refine (sortBy_sorted ?_ ?_ _).imp ?_
      · intro a b; simp; omega
      · intro a b c; simp; omega
      · intro a b; simp

/-- **C51** (partial), tally: it succeeds if the groups contain no objects -/
theorem C51_tally_succeeds (c : XP.PCfg) (xc : XP.PV) (query sub : Str) (ms : List XP.PV)
    (gs : List (List (Option Str))) (h1 : XP.findall c xc query = .ok ms) (h2 : Groups c sub ms gs) :
    ∃ r, tally c xc query sub = .ok r := by
  simp only [tally, bind, Except.bind, h1, tallyLoop_ok h2]
  exact ⟨_, rfl⟩

/-- **C51** (partial), unique: if the matches contain no objects the result is the number of
different matches -/
theorem C51_unique_partial (c : XP.PCfg) (xc : XP.PV) (query : Str) (ms : List XP.PV)
    (ks : List (Option Str)) (h1 : XP.findall c xc query = .ok ms) (h2 : Plains ms ks) :
    ∃ n, unique c xc query = .ok n ∧
      ∀ l : List (Option Str), l.Nodup → (∀ k, k ∈ l ↔ k ∈ ks) → n = l.length := by
  simp only [unique, bind, Except.bind, h1, counter_ok h2]
  refine ⟨_, rfl, ?_⟩
  intro l h3 h4
  exact tally_length (tally_counts ks) h3 h4

/-- **C51**, unique fails if there is an object among the matches -/
theorem C51_unique_fails (c : XP.PCfg) (xc : XP.PV) (query : Str) (ms : List XP.PV)
    (h1 : XP.findall c xc query = .ok ms) (h2 : ¬ ∃ ks, Plains ms ks) :
    unique c xc query = .error .typeError := by
  have key : ∀ (ms : List XP.PV) d e, counter ms d = .error e → e = .typeError := by
    intro ms
    induction ms with
    | nil => intro d e h; simp [counter] at h
    | cons m ms ih =>
      intro d e h
      simp only [counter, bind, Except.bind] at h
      cases hk : hashKey m with
      | error e' =>
        rw [hk] at h
        injection h with h
        subst h
        cases m <;> simp [hashKey] at hk <;> exact hk.symm
      | ok k => rw [hk] at h; exact ih _ _ h
  simp only [unique, bind, Except.bind, h1]
  cases h3 : counter ms [] with
  | error e => rw [key _ _ _ h3]
  | ok d => exact absurd (counter_plains _ _ _ h3) h2

/-- **C51**, count: the number of matches -/
theorem C51_count (c : XP.PCfg) (xc : XP.PV) (query : Str) (ms : List XP.PV)
    (h1 : XP.findall c xc query = .ok ms) : count c xc query = .ok ms.length := by
  simp only [count, bind, Except.bind, h1]

/-- a tally never counts more or fewer matches than `--count` -/
theorem C51_tally_count (c : XP.PCfg) (xc : XP.PV) (query sub : Str) (r)
    (h : tally c xc query sub = .ok r) : count c xc query = .ok (r.map Prod.snd).sum := by
  obtain ⟨ms, _, h1, _, _, h2, _⟩ := C51_tally_partial c xc query sub r h
  rw [C51_count _ _ _ _ h1, h2]

end

section
attribute [local instance] asciiUni

def exIgt (t : Option Str) : Obj := .mk { cls := .igt, type := t } [] []
def exCorpus : Obj := .mk { cls := .corpus } [] [exIgt (some (lit! "a")), exIgt (some (lit! "b")), exIgt (some (lit! "b")), exIgt none]
def exCfg : XP.PCfg := ⟨10, fun _ => [], fun _ => []⟩

example : tally exCfg (.node exCorpus []) (lit! "igt") (lit! "@type") =
    .ok [([some (lit! "b")], 2), ([some (lit! "a")], 1), ([], 1)] := by decide +kernel
example : unique exCfg (.node exCorpus []) (lit! "igt/@type") = .ok 2 := by decide +kernel
example : count exCfg (.node exCorpus []) (lit! "igt/@type") = .ok 3 := by decide +kernel
example : Plains [.str (lit! "a"), .none] [some (lit! "a"), none] := .cons (.str _) (.cons .none .nil)

/-- C51 is false for matches and groups that are objects: the script fails -/
theorem C51_refuted : ∃ (c : XP.PCfg) (xc : XP.PV) (q : Str), count c xc q = .ok 4 ∧
    unique c xc q = .error .typeError ∧ tally c xc (lit! ".") q = .error .typeError := by
  refine ⟨exCfg, .node exCorpus [], lit! "igt", ?_, ?_, ?_⟩ <;> decide +kernel
end
end Xigt.Qry
