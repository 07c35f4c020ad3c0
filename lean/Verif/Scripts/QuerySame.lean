import Verif.Scripts.QueryMain
import Verif.Scripts.SortPaths
import Verif.Scripts.PartitionPaths
/-
C162: what `xigt query` (/repo/xigt/scripts/xigt_query.py) prints of corpora that were saved and loaded, sorted
(/repo/xigt/scripts/xigt_sort.py) or partitioned (/repo/xigt/scripts/xigt_partition.py).
-/

set_option linter.unusedSectionVars false

namespace Xigt.Qry
open Fmt XP

/-! ### Spec -/

/-- the paths of an action -/
def Action.paths : Action → List Str
  | .find q => [q]
  | .unique q => [q]
  | .count q => [q]
  | .tally q sub => [q, sub]

/-- the results that `find` shows are strings and None (the text of an object contains its address) -/
def ShowsStrings [Uni] (c : PCfg) (xc : PV) (act : Action) : Prop :=
  ∀ q l, act = .find q → XP.findall c xc q = .ok l → ∀ v ∈ l, ∃ k, Plain v k

/-- files of the same name: loading fails with the same exception, or gives values that are related -/
def SameFile (R : PV → PV → Prop) (f g : Str × Py PV) : Prop := f.1 = g.1 ∧ PyR R f.2 g.2

section
variable [Uni]

/-! ### Equal corpora -/

theorem printMatches_same {b : Bool} (env : QEnv) (d : Str) {ms ms' : List PV} (h : Pairs2 (PvR b) ms ms') (hp : ∀ v ∈ ms, ∃ k, Plain v k) :
    printMatches env d ms = printMatches env d ms' := by
  induction h with
  | nil => rfl
  | @cons v w l l' h _ ih =>
    have hv : v = w := by
      obtain ⟨k, hk⟩ := hp v (List.mem_cons_self ..)
      cases hk <;> cases h <;> rfl
    simp only [printMatches, hv, ih fun u hu => hp u (List.mem_cons_of_mem _ hu)]

theorem processOne_same {b : Bool} (env : QEnv) {c : PCfg} (hf : FreshAll c) (hal : ByType c.allowed) {v v' : PV} (h : PvR b v v') (a : Agendum)
    (hn : ∀ q ∈ a.action.paths, Neutral b q) (hne : ∀ q, a.action ≠ .find q) : processOne env c v a = processOne env c v' a := by
  obtain ⟨act, d⟩ := a
  cases act with
  | find q => exact absurd rfl (hne q)
  | tally q sub =>
    have := (answers_same hf hal h (hn q (by simp [Action.paths]))).2.2.2.2 sub (hn sub (by simp [Action.paths]))
    simp only [processOne, this]
  | unique q =>
    have := (answers_same hf hal h (hn q (by simp [Action.paths]))).2.2.2.1
    simp only [processOne, this]
  | count q =>
    have := (answers_same hf hal h (hn q (by simp [Action.paths]))).2.2.1
    simp only [processOne, this]

theorem printAgenda_same {b : Bool} (env : QEnv) {c : PCfg} (hf : FreshAll c) (hal : ByType c.allowed) {v v' : PV} (h : PvR b v v') :
    ∀ as : List Agendum, (∀ a ∈ as, ∀ q ∈ a.action.paths, Neutral b q) → (∀ a ∈ as, ShowsStrings c v a.action) →
      printAgenda env c v as = printAgenda env c v' as := by
  intro as
  induction as with
  | nil => intro _ _; rfl
  | cons a as ih =>
    intro hn hs
    have ih := ih (fun x hx => hn x (List.mem_cons_of_mem _ hx)) fun x hx => hs x (List.mem_cons_of_mem _ hx)
    have hn := hn a (List.mem_cons_self ..)
    have hs := hs a (List.mem_cons_self ..)
    obtain ⟨act, d⟩ := a
    cases act with
    | find q =>
      have h1 := (answers_same hf hal h (hn q (by simp [Action.paths]))).1
      simp only [printAgenda]
      cases e1 : XP.findall c v q <;> cases e2 : XP.findall c v' q <;> rw [e1, e2] at h1
      · simp only [PyR] at h1; rw [h1]
      · exact h1.elim
      · exact h1.elim
      · rename_i l l'
        simp only [printMatches_same env d (show Pairs2 (PvR b) l l' from h1) (hs q l rfl e1), ih]
    | tally q sub => simp only [printAgenda, processOne_same env hf hal h ⟨.tally q sub, d⟩ hn (by simp), ih]
    | unique q => simp only [printAgenda, processOne_same env hf hal h ⟨.unique q, d⟩ hn (by simp), ih]
    | count q => simp only [printAgenda, processOne_same env hf hal h ⟨.count q, d⟩ hn (by simp), ih]

theorem allFiles_same {b : Bool} (env : QEnv) {c : PCfg} (hf : FreshAll c) (hal : ByType c.allowed) (a a' : QArgs) (hb : a.base = a'.base)
    (hd : a.fileDescription = a'.fileDescription) (agenda : List Agendum) (hn : ∀ g ∈ agenda, ∀ q ∈ g.action.paths, Neutral b q)
    {fs fs' : List (Str × Py PV)} (h : All2 (SameFile (PvR b)) fs fs') (hs : ∀ f ∈ fs, ∀ v, f.2 = .ok v → ∀ g ∈ agenda, ShowsStrings c v g.action) :
    allFiles env c a agenda fs = allFiles env c a' agenda fs' := by
  induction h with
  | nil => rfl
  | @cons f f' fs fs' h _ ih =>
    have ih := ih fun x hx => hs x (List.mem_cons_of_mem _ hx)
    have hone : printFile env c a agenda f = printFile env c a' agenda f' := by
      obtain ⟨n, r⟩ := f
      obtain ⟨n', r'⟩ := f'
      obtain ⟨rfl, h⟩ := h
      replace hs := hs (n, r) (List.mem_cons_self ..)
      simp only [printFile, hb, hd]
      cases r <;> cases r' <;> simp only [PyR] at h
      · rw [h]
      · rename_i v v'
        simp only [printAgenda_same env hf hal h agenda hn (hs v rfl)]
    simp only [allFiles, hone, ih]

omit [Uni] in
theorem makeJob_actions (env : QEnv) : ∀ (os : List Opt) (ag out : List Agendum), makeJob env ag os = .ok out →
    ∀ g ∈ out, (∃ g' ∈ ag, g'.action = g.action) ∨ .act g.action ∈ os := by
  intro os
  induction os with
  | nil => intro ag out h g hg; cases h; exact .inl ⟨g, hg, rfl⟩
  | cons o os ih =>
    intro ag out h g hg
    rw [makeJob] at h
    obtain ⟨ag', h1, h⟩ := bindOk h
    rcases ih ag' out h g hg with ⟨g', h2, h3⟩ | h2
    · cases o with
      | act x =>
        simp only [addOpt] at h1
        obtain ⟨t, -, h1⟩ := bindOk h1
        cases h1
        rcases List.mem_append.1 h2 with h2 | h2
        · exact .inl ⟨g', h2, h3⟩
        · simp only [List.mem_singleton] at h2
          subst h2
          exact .inr (by rw [← h3]; exact List.mem_cons_self ..)
      | description d =>
        simp only [addOpt] at h1
        cases hl : ag.getLast? with
        | none => rw [hl] at h1; cases h1
        | some x =>
          rw [hl] at h1
          simp only at h1
          obtain ⟨t, -, h1⟩ := bindOk h1
          cases h1
          rcases List.mem_append.1 h2 with h2 | h2
          · exact .inl ⟨g', List.dropLast_subset _ h2, h3⟩
          · simp only [List.mem_singleton] at h2
            subst h2
            exact .inl ⟨x, List.mem_of_getLast? hl, h3⟩
    · exact .inr (List.mem_cons_of_mem _ h2)

theorem query_same {b : Bool} (env : QEnv) {c : PCfg} (hf : FreshAll c) (hal : ByType c.allowed) (a : QArgs) (fs : List (Str × Py PV))
    (h : All2 (SameFile (PvR b)) a.files fs) (hn : ∀ act, Opt.act act ∈ a.opts → ∀ q ∈ act.paths, Neutral b q)
    (hs : ∀ f ∈ a.files, ∀ v, f.2 = .ok v → ∀ act, Opt.act act ∈ a.opts → ShowsStrings c v act) :
    queryMain env c a = queryMain env c { a with files := fs } := by
  have he : a.files.isEmpty = fs.isEmpty := by
    generalize a.files = l at h
    cases h <;> rfl
  unfold queryMain
  simp only [he]
  split
  · rfl
  · cases ho : a.opts with
    | nil => rfl
    | cons o os =>
      cases o with
      | description d => rfl
      | act x =>
        simp only
        cases hj : makeJob env [] (.act x :: os) with
        | error e => rfl
        | ok agenda =>
          have hin : ∀ g ∈ agenda, Opt.act g.action ∈ a.opts := by
            intro g hg
            rcases makeJob_actions env _ _ _ hj g hg with ⟨_, h1, _⟩ | h1
            · cases h1
            · rw [ho]; exact h1
          simp only
          exact allFiles_same env hf hal a ⟨.act x :: os, a.fileDescription, a.base, fs⟩ rfl rfl agenda (fun g hg q hq => hn _ (hin g hg) q hq) h
            fun f hf v hv g hg => hs f hf v hv _ (hin g hg)

/-- **C162** for equal corpora (`==`), and paths without prefixes and `@*`: the output and the end are the same. -/
theorem C162_equal_partial (env : QEnv) (c : PCfg) (hf : FreshAll c) (hal : ByType c.allowed) (a : QArgs) (fs : List (Str × Py PV))
    (h : All2 (SameFile fun v w => ∃ x y, v = .node x [] ∧ w = .node y [] ∧ Srt.Equal x y) a.files fs)
    (hn : ∀ act, Opt.act act ∈ a.opts → ∀ q ∈ act.paths, ':' ∉ q ∧ ('@' ∉ q ∨ '*' ∉ q))
    (hs : ∀ f ∈ a.files, ∀ v, f.2 = .ok v → ∀ act, Opt.act act ∈ a.opts → ShowsStrings c v act) :
    queryMain env c a = queryMain env c { a with files := fs } := by
  refine query_same (b := false) env hf hal a fs ?_ (fun act ha q hq _ => hn act ha q hq) hs
  clear hs
  generalize a.files = l at h
  induction h with
  | nil => exact .nil
  | @cons f g _ _ h _ ih =>
    refine .cons ⟨h.1, ?_⟩ ih
    have h := h.2
    revert h
    cases f.2 <;> cases g.2 <;> intro h <;> try exact h
    obtain ⟨x, y, rfl, rfl, h1, h2, h3, h4⟩ := (show ∃ x y, _ ∧ _ ∧ Srt.Equal x y from h)
    exact .node (.cons ⟨⟨(C10_eq_is_same_data x y h1 h2 h3).1 h4, h1⟩, (fun h => by cases h)⟩ .nil)

/-- **C162** for a corpus and what is loaded from its XML file, and all paths: if XML keeps its data (C40) and at most the corpus itself declares namespaces. -/
theorem C162_xml_partial [XmlLex] (env : QEnv) (c : PCfg) (hf : FreshAll c) (hal : ByType c.allowed) (x : Obj) (hc : x.cls = .corpus) (hw : x.WF) (hv : x.Valid)
    (hk : XmlKept [] x) (hn : NamesOK [] x) (hmd : ∀ y ∈ x.md, NoOwnNs y) (hkids : ∀ y ∈ x.kids, NoOwnNs y) (look : Nat → Nat) (ind : Option Int) :
    ∃ s y, dumpsXml ind x = .ok s ∧ loadsXml look s = .ok y ∧ ∀ (a : QArgs) (fn : Str), (∀ act, Opt.act act ∈ a.opts → ShowsStrings c (.node x []) act) →
      queryMain env c { a with files := [(fn, .ok (.node x []))] } = queryMain env c { a with files := [(fn, .ok (.node y []))] } := by
  obtain ⟨s, y, h1, h2, h3⟩ := xml_kid x hc hw hv hk hn hmd hkids look ind
  refine ⟨s, y, h1, h2, fun a fn hs => ?_⟩
  refine query_same (b := true) env hf hal { a with files := [(fn, .ok (.node x []))] } [(fn, .ok (.node y []))] (.cons ⟨rfl, .node (.cons h3 .nil)⟩ .nil)
    (fun _ _ _ _ h => by cases h) ?_
  intro f hf v hv act ha
  simp only [List.mem_singleton] at hf
  subst hf
  cases hv
  exact hs act ha

/-! ### Sorted corpora -/

theorem shuf_plain {l l' : List PV} (h : Srt.Shuf Srt.SameVal l l') (hp : ∀ v ∈ l, ∃ k, Plain v k) : l'.Perm l := by
  obtain ⟨m, h1, h2⟩ := h
  have hp : ∀ v ∈ m, ∃ k, Plain v k := fun v hv => hp v (h1.mem_iff.1 hv)
  suffices m = l' by rw [← this]; exact h1
  clear h1
  induction h2 with
  | nil => rfl
  | @cons v w l l' h _ ih =>
    rw [ih fun u hu => hp u (List.mem_cons_of_mem _ hu)]
    obtain ⟨k, hk⟩ := hp v (List.mem_cons_self ..)
    cases hk <;> cases w <;> simp_all [Srt.SameVal]

omit [Uni] in
theorem fillAll_perm {env : QEnv} {d : Str} {l l' : List Fmt.Val} (h : l.Perm l') : ∀ ts, fillAll env d l = .ok ts → ∃ ts', fillAll env d l' = .ok ts' ∧ ts'.Perm ts := by
  induction h with
  | nil => intro ts h; exact ⟨ts, h, .refl _⟩
  | cons v _ ih =>
    intro ts h
    rw [fillAll] at h
    obtain ⟨t, h1, h⟩ := bindOk h
    obtain ⟨ts1, h2, h⟩ := bindOk h
    cases h
    obtain ⟨ts', h3, h4⟩ := ih ts1 h2
    exact ⟨t :: ts', by simp only [fillAll, h1, h3, bind, Except.bind], h4.cons t⟩
  | swap v w l =>
    intro ts h
    rw [fillAll] at h
    obtain ⟨t, h1, h⟩ := bindOk h
    obtain ⟨ts1, h2, h⟩ := bindOk h
    cases h
    rw [fillAll] at h2
    obtain ⟨t', h3, h2⟩ := bindOk h2
    obtain ⟨ts2, h4, h2⟩ := bindOk h2
    cases h2
    exact ⟨t' :: t :: ts2, by simp only [fillAll, h1, h3, h4, bind, Except.bind], .swap ..⟩
  | trans _ _ ih1 ih2 =>
    intro ts h
    obtain ⟨ts1, h1, h2⟩ := ih1 ts h
    obtain ⟨ts2, h3, h4⟩ := ih2 ts1 h1
    exact ⟨ts2, h3, h4.trans h2⟩

omit [Uni] in
theorem plains_of {l : List PV} (h : ∀ v ∈ l, ∃ k, Plain v k) : ∃ ks, Plains l ks := by
  induction l with
  | nil => exact ⟨[], .nil⟩
  | cons v l ih =>
    obtain ⟨k, hk⟩ := h v (List.mem_cons_self ..)
    obtain ⟨ks, hks⟩ := ih fun u hu => h u (List.mem_cons_of_mem _ hu)
    exact ⟨k :: ks, .cons hk hks⟩

omit [Uni] in
theorem plains_mem {l : List PV} {ks : List (Option Str)} (h : Plains l ks) : (∀ v ∈ l, ∃ k, Plain v k) ∧
    ∀ k, k ∈ ks ↔ ∃ v ∈ l, Plain v k := by
  induction h with
  | nil => simp
  | @cons v k l ks h _ ih =>
    refine ⟨?_, fun k' => ?_⟩
    · intro u hu
      rcases List.mem_cons.1 hu with rfl | hu
      · exact ⟨k, h⟩
      · exact ih.1 u hu
    · simp only [List.mem_cons, ih.2 k', exists_eq_or_imp]
      constructor
      · rintro (rfl | h')
        · exact .inl h
        · exact .inr h'
      · rintro (h' | h')
        · left
          cases h <;> cases h' <;> rfl
        · exact .inr h'

theorem unique_perm {c : PCfg} {v w : PV} {q : Str} {l l' : List PV} {n : Nat} (hl : XP.findall c v q = .ok l) (hl' : XP.findall c w q = .ok l')
    (hu : unique c v q = .ok n) (hp : (∃ ks, Plains l ks) → l'.Perm l) : unique c w q = .ok n := by
  have hks : ∃ ks, Plains l ks := Classical.byContradiction fun h => by
    rw [C51_unique_fails c v q l hl h] at hu
    cases hu
  have hp := hp hks
  obtain ⟨ks, hks⟩ := hks
  obtain ⟨ks', hks'⟩ := plains_of fun u hu => (plains_mem hks).1 u (hp.mem_iff.1 hu)
  obtain ⟨n1, h1, h2⟩ := C51_unique_partial c v q l ks hl hks
  obtain ⟨n2, h3, h4⟩ := C51_unique_partial c w q l' ks' hl' hks'
  rw [hu] at h1
  cases h1
  have ht := tally_counts ks
  have hm : ∀ k, k ∈ (ks.foldl bump []).map Prod.fst ↔ k ∈ ks := by
    intro k
    constructor
    · intro hk
      obtain ⟨⟨k', m⟩, hk', rfl⟩ := List.mem_map.1 hk
      exact ((ht.exact _ _).1 hk').1
    · intro hk
      exact List.mem_map.2 ⟨(k, _), (ht.exact _ _).2 ⟨hk, rfl⟩, rfl⟩
  rw [h2 _ ht.once hm, h3, h4 _ ht.once fun k => ?_]
  rw [hm k, (plains_mem hks).2, (plains_mem hks').2]
  constructor
  · rintro ⟨u, hu, hk⟩; exact ⟨u, hp.mem_iff.2 hu, hk⟩
  · rintro ⟨u, hu, hk⟩; exact ⟨u, hp.mem_iff.1 hu, hk⟩

/-- an action that asks for no more than sorting keeps (C147): not `tally`, and its path can be written and uses only functions for which the corpus is fit -/
def Sortable (c : PCfg) (x : Obj) (act : Action) : Prop :=
  (∀ q sub, act ≠ .tally q sub) ∧ ∀ q ∈ act.paths, ∃ p : PPath, p.Ok ∧ q = p.render ∧ Srt.Needs c x (Srt.fnsPath p)

/-- whether an action has a result in the table -/
def Action.counts : Action → Bool
  | .find _ => false
  | _ => true

theorem processOne_sorted (cs : PCfg) (k : Nat) (sa : Srt.Args) (x y : Obj) (hrun : Srt.run cs k sa x = some (.ok y)) (hx : x.WF) (hcls : x.cls = .corpus)
    (env : QEnv) (c : PCfg) (a : Agendum) (hsup : Sortable c x a.action) (hs : ShowsStrings c (.node x []) a.action) (r : List Str × List (Nat × Str))
    (h : processOne env c (.node x []) a = .ok r) : ∃ m', processOne env c (.node y []) a = .ok (m', r.2) ∧ m'.Perm r.1 ∧ r.2.length = if a.action.counts then 1 else 0 := by
  have hfound : ∀ q ∈ a.action.paths, Srt.SameFound Srt.SameVal (XP.findall c (.node x []) q) (XP.findall c (.node y []) q) := by
    intro q hq
    obtain ⟨p, h1, rfl, h2⟩ := hsup.2 q hq
    exact Srt.C147_partial cs k sa x y hrun hx hcls c p h1 h2
  obtain ⟨act, d⟩ := a
  have both : ∀ q ∈ act.paths, ∀ l, XP.findall c (.node x []) q = .ok l → ∃ l', XP.findall c (.node y []) q = .ok l' ∧ Srt.Shuf Srt.SameVal l l' := by
    intro q hq l hl
    have := hfound q hq
    rw [hl] at this
    revert this
    cases XP.findall c (.node y []) q with
    | error e => intro h; exact h.elim
    | ok l' => intro h; exact ⟨l', rfl, h⟩
  cases act with
  | tally q sub => exact absurd rfl (hsup.1 q sub)
  | find q =>
    simp only [processOne, findLines] at h
    obtain ⟨ls, h1, h⟩ := bindOk h
    obtain ⟨l, h2, h1⟩ := bindOk h1
    obtain ⟨ts, h3, h1⟩ := bindOk h1
    cases h1
    cases h
    obtain ⟨l', h4, h5⟩ := both q (by simp [Action.paths]) l h2
    have hp := shuf_plain h5 (hs q l rfl h2)
    obtain ⟨ts', h6, h7⟩ := fillAll_perm (hp.symm.map env.val) ts h3
    exact ⟨ts'.map fun t => lit! "  " ++ t, by simp [processOne, findLines, h4, h6, bind, Except.bind], h7.map _, rfl⟩
  | unique q =>
    simp only [processOne] at h
    obtain ⟨n, h1, h⟩ := bindOk h
    obtain ⟨t, h2, h⟩ := bindOk h
    cases h
    cases hl : XP.findall c (.node x []) q with
    | error e => simp [unique, hl, bind, Except.bind] at h1
    | ok l =>
      obtain ⟨l', h4, h5⟩ := both q (by simp [Action.paths]) l hl
      have := unique_perm hl h4 h1 fun ⟨ks, hks⟩ => shuf_plain h5 (plains_mem hks).1
      exact ⟨[], by simp [processOne, this, h2, bind, Except.bind], .refl _, rfl⟩
  | count q =>
    simp only [processOne] at h
    obtain ⟨n, h1, h⟩ := bindOk h
    obtain ⟨t, h2, h⟩ := bindOk h
    cases h
    cases hl : XP.findall c (.node x []) q with
    | error e => simp [count, hl, bind, Except.bind] at h1
    | ok l =>
      obtain ⟨l', h4, h5⟩ := both q (by simp [Action.paths]) l hl
      rw [C51_count _ _ _ _ hl] at h1
      cases h1
      exact ⟨[], by simp [processOne, C51_count _ _ _ _ h4, h2, bind, Except.bind, h5.length], .refl _, rfl⟩

theorem processAgenda_sorted (cs : PCfg) (k : Nat) (sa : Srt.Args) (x y : Obj) (hrun : Srt.run cs k sa x = some (.ok y)) (hx : x.WF) (hcls : x.cls = .corpus)
    (env : QEnv) (c : PCfg) : ∀ (as : List Agendum), (∀ a ∈ as, Sortable c x a.action) → (∀ a ∈ as, ShowsStrings c (.node x []) a.action) →
    ∀ r, processAgenda env c (.node x []) as = .ok r → ∃ m', processAgenda env c (.node y []) as = .ok (m', r.2) ∧ m'.Perm r.1 ∧
      r.2.length = as.countP fun a => a.action.counts := by
  intro as
  induction as with
  | nil => intro _ _ r h; cases h; exact ⟨[], rfl, .refl _, rfl⟩
  | cons a as ih =>
    intro h1 h2 r h
    rw [processAgenda] at h
    obtain ⟨p, h3, h⟩ := bindOk h
    obtain ⟨q, h4, h⟩ := bindOk h
    cases h
    obtain ⟨m1, h5, h6, h7⟩ := processOne_sorted cs k sa x y hrun hx hcls env c a (h1 a (List.mem_cons_self ..)) (h2 a (List.mem_cons_self ..)) p h3
    obtain ⟨m2, h8, h9, h10⟩ := ih (fun b hb => h1 b (List.mem_cons_of_mem _ hb)) (fun b hb => h2 b (List.mem_cons_of_mem _ hb)) q h4
    refine ⟨m1 ++ m2, by simp [processAgenda, h5, h8, bind, Except.bind], h6.append h9, ?_⟩
    rw [List.length_append, h7, h10, List.countP_cons]
    omega

/-- **C162** for a sorted corpus (with actions that are not tallies and do not depend on order, and strings as matches): the heading and the table of results are
the same, and the lines of matches are the same in another order. -/
theorem C162_sort_partial (cs : PCfg) (k : Nat) (sa : Srt.Args) (x y : Obj) (hrun : Srt.run cs k sa x = some (.ok y)) (hx : x.WF) (hcls : x.cls = .corpus)
    (env : QEnv) (c : PCfg) (a : QArgs) (hsup : ∀ act, Opt.act act ∈ a.opts → Sortable c x act)
    (hs : ∀ act, Opt.act act ∈ a.opts → ShowsStrings c (.node x []) act) (fn : Str) (ls : List Str)
    (h : queryMain env c { a with files := [(fn, .ok (.node x []))] } = (ls, .done)) :
    ∃ hd m m' rs, ls = hd :: m ++ resultLines rs ++ [[]] ∧ m'.Perm m ∧
      queryMain env c { a with files := [(fn, .ok (.node y []))] } = (hd :: m' ++ resultLines rs ++ [[]], .done) := by
  cases ho : a.opts with
  | nil => simp [queryMain, ho] at h
  | cons o os =>
    cases o with
    | description d => simp [queryMain, ho] at h
    | act act =>
      cases hj : makeJob env [] a.opts with
      | error e => rw [ho] at hj; simp [queryMain, ho, hj] at h
      | ok agenda =>
        have hin : ∀ g ∈ agenda, Opt.act g.action ∈ a.opts := by
          intro g hg
          rcases makeJob_actions env _ _ _ hj g hg with ⟨_, h1, _⟩ | h1
          · cases h1
          · exact h1
        obtain ⟨xc, h1, h2⟩ := (C126_file env c a act os agenda ho hj _ ls).1 h
        cases h1
        simp only [fileLines] at h2
        obtain ⟨hd, h3, h2⟩ := bindOk h2
        obtain ⟨p, h4, h2⟩ := bindOk h2
        cases h2
        obtain ⟨m', h5, h6, -⟩ := processAgenda_sorted cs k sa x y hrun hx hcls env c agenda (fun g hg => hsup _ (hin g hg)) (fun g hg => hs _ (hin g hg)) p h4
        refine ⟨hd, p.1, m', p.2, rfl, h6, ?_⟩
        rw [← ho]
        refine (C126_file env c a act os agenda ho hj (fn, .ok (.node y [])) _).2 ⟨_, rfl, ?_⟩
        simp only [fileLines]
        simp [h3, h5, bind, Except.bind]

/-! ### Partitions -/

theorem count_length {c : PCfg} {x : Obj} {q : Str} {n : Nat} (h : count c (.node x []) q = .ok n) :
    ∃ l, XP.findall c (.node x []) q = .ok l ∧ l.length = n := by
  unfold count at h
  obtain ⟨l, h1, h⟩ := bindOk h
  cases h
  exact ⟨l, h1, rfl⟩

theorem counts_found {c : PCfg} {q : Str} {xs : List Obj} {ns : List Nat} (h : All2 (fun x n => count c (.node x []) q = .ok n) xs ns) :
    ∃ l, Part.foundIn c q xs = .ok l ∧ l.length = ns.sum := by
  suffices ∃ r, mapPy (fun x => XP.findall c (.node x []) q) xs = .ok r ∧ r.flatten.length = ns.sum by
    obtain ⟨r, h1, h2⟩ := this
    exact ⟨r.flatten, by simp only [Part.foundIn, h1]; rfl, h2⟩
  induction h with
  | nil => exact ⟨[], rfl, rfl⟩
  | cons h _ ih =>
    obtain ⟨r, h1, h2⟩ := ih
    obtain ⟨l, h3, h4⟩ := count_length h
    refine ⟨l :: r, by simp only [mapPy, h3, h1, bind, Except.bind]; rfl, ?_⟩
    rw [List.flatten_cons, List.length_append, h2, h4, List.sum_cons]

theorem found_counts {c : PCfg} {q : Str} {xs : List Obj} {l : List PV} (h : Part.foundIn c q xs = .ok l) :
    ∃ ns, All2 (fun x n => count c (.node x []) q = .ok n) xs ns ∧ ns.sum = l.length := by
  unfold Part.foundIn at h
  cases hm : mapPy (fun x => XP.findall c (.node x []) q) xs with
  | error e => rw [hm] at h; cases h
  | ok r =>
    rw [hm] at h
    cases h
    induction xs generalizing r with
    | nil => cases hm; exact ⟨[], .nil, rfl⟩
    | cons x xs ih =>
      unfold mapPy at hm
      obtain ⟨l, h, hm⟩ := bindOk hm
      obtain ⟨r, hr, hm⟩ := bindOk hm
      cases hm
      obtain ⟨ns, h1, h2⟩ := ih r hr
      exact ⟨l.length :: ns, .cons (C51_count _ _ _ _ h) h1, by rw [List.flatten_cons, List.length_append, List.sum_cons, h2]⟩

/-- **C162** for a partition (paths that lead into IGTs and stay there, in files with IGTs that have namespaces of their own, and keys with different file names):
there are counts for all the files exactly if there are for those of the partition, and they add up to the same. -/
theorem C162_partition_partial (env : Part.PEnv) (infiles : List Str) (out : Dict Str Obj) (h : Part.run env infiles = .ok out) :
    ∃ file, Part.Readable env file infiles ∧
      ((∀ k k', Part.Occurs env file infiles k → Part.Occurs env file infiles k' → Part.outName env k = Part.outName env k' → k = k') →
        (∀ fn ∈ infiles, (file fn).root.cls = .corpus ∧ ∀ g ∈ (file fn).igts, Part.Whole g) →
        ∀ (c : PCfg) (p : PPath), p.Ok → Part.IntoIgts (∀ fn ∈ infiles, (file fn).root.md = []) p → ∀ n,
          (∃ ns, All2 (fun fn n => count c (.node (file fn).corpus []) p.render = .ok n) (Part.firsts infiles) ns ∧ ns.sum = n) ↔
            ∃ ns, All2 (fun (o : Str × Obj) n => count c (.node o.2 []) p.render = .ok n) out ns ∧ ns.sum = n) := by
  obtain ⟨file, hr, H⟩ := Part.C148_partial env infiles out h
  refine ⟨file, hr, fun h1 h2 c p hp hi n => ?_⟩
  have hsame := H h1 h2 c p hp hi
  have mapL : ∀ {α : Type} {f : α → Obj} {l : List α} {ns : List Nat},
      All2 (fun x n => count c (.node (f x) []) p.render = .ok n) l ns ↔ All2 (fun x n => count c (.node x []) p.render = .ok n) (l.map f) ns := by
    intro α f l
    induction l with
    | nil => intro ns; constructor <;> intro h <;> cases h <;> exact .nil
    | cons x l ih =>
      intro ns
      constructor
      · intro h; cases h with | cons h1 h2 => exact .cons h1 (ih.1 h2)
      · intro h; cases h with | cons h1 h2 => exact .cons h1 (ih.2 h2)
  constructor
  · rintro ⟨ns, h3, rfl⟩
    obtain ⟨l, h4, h5⟩ := counts_found ((mapL (f := fun fn => (file fn).corpus)).1 h3)
    rw [h4] at hsame
    revert hsame
    cases h6 : Part.foundIn c p.render (out.map Prod.snd) with
    | error e => intro h; exact h.elim
    | ok l' =>
      intro hsh
      obtain ⟨ns', h7, h8⟩ := found_counts h6
      exact ⟨ns', mapL.2 h7, by rw [h8, ← h5, Srt.Shuf.length (show Srt.Shuf Part.SameBelow l l' from hsh)]⟩
  · rintro ⟨ns, h3, rfl⟩
    obtain ⟨l, h4, h5⟩ := counts_found (mapL.1 h3)
    rw [h4] at hsame
    revert hsame
    cases h6 : Part.foundIn c p.render ((Part.firsts infiles).map fun fn => (file fn).corpus) with
    | error e => intro h; exact h.elim
    | ok l' =>
      intro hsh
      obtain ⟨ns', h7, h8⟩ := found_counts h6
      exact ⟨ns', mapL.2 h7, by rw [h8, ← h5, Srt.Shuf.length (show Srt.Shuf Part.SameBelow l' l from hsh)]⟩

end

/-! ### Examples and refutations -/

section
attribute [local instance] asciiUni

/-- a query: all values, how many there are and how many different ones -/
def exValues : QArgs := ⟨[.act (.find Srt.valuesPath.render), .description (lit! "{match}"), .act (.count Srt.valuesPath.render), .act (.unique Srt.valuesPath.render)], none, false, []⟩

/-- a query: the tiers of the igts -/
def exTally : QArgs := ⟨[.act (.tally (lit! "igt") (lit! "tier/@id")), .description (lit! "{match}")], none, false, []⟩

/-- what is printed of the corpus, and of it once its tiers are sorted by their IDs -/
def exSorted (a : QArgs) (x : Obj) : (List Str × Ending) × Option (List Str × Ending) :=
  (queryMain exQ stdCfg { a with files := [(lit! "f", .ok (.node x []))] },
    match Srt.run exCfg 10 { tierKey := [lit! "@id"] } x with
    | some (.ok y) => some (queryMain exQ stdCfg { a with files := [(lit! "f", .ok (.node y []))] })
    | _ => none)

theorem exNeeds : Srt.Needs stdCfg (Srt.pathCorpus (Srt.numIgt (lit! "b"))) (Srt.fnsPath Srt.valuesPath) := by
  refine ⟨fun _ g hg => ?_, fun f hf => ?_⟩
  · rw [List.mem_singleton.1 hg]
    exact Srt.named_ex
  · simp [Srt.valuesPath, Srt.itemsThen, Srt.fnsPath, Srt.fnsSteps, Srt.fnsNode, Srt.fnsPreds] at hf
    intro _ h2
    exact absurd hf h2

/-- the hypotheses of C162_sort_partial are met, and matches are printed in another order -/
example : (∀ act, Opt.act act ∈ exValues.opts → Sortable stdCfg (Srt.pathCorpus (Srt.numIgt (lit! "b"))) act) ∧
    (∀ act, Opt.act act ∈ exValues.opts → ShowsStrings stdCfg (.node (Srt.pathCorpus (Srt.numIgt (lit! "b"))) []) act) ∧
    (exSorted exValues (Srt.pathCorpus (Srt.numIgt (lit! "b")))).1.1.take 4 = [lit! "f:", lit! "  x", lit! "  y", lit! "  x"] ∧
    ((exSorted exValues (Srt.pathCorpus (Srt.numIgt (lit! "b")))).2.map fun p => (p.1.take 4, p.2)) = some ([lit! "f:", lit! "  y", lit! "  x", lit! "  x"], .done) := by
  refine ⟨?_, ?_, by decide +kernel, by decide +kernel⟩
  · intro act h
    simp only [exValues, List.mem_cons, Opt.act.injEq, reduceCtorEq, List.not_mem_nil, or_false, false_or] at h
    rcases h with rfl | rfl | rfl <;> refine ⟨by simp, fun q hq => ⟨Srt.valuesPath, Srt.valuesPath_ok, by simpa [Action.paths] using hq, exNeeds⟩⟩
  · intro act _ q l he hl v hv
    subst he
    have hq : q = Srt.valuesPath.render := by
      rename_i h
      simpa [exValues] using h
    subst hq
    have : (match XP.findall stdCfg (.node (Srt.pathCorpus (Srt.numIgt (lit! "b"))) []) Srt.valuesPath.render with
      | .ok l => l.all fun v => match v with | .str _ => true | _ => false
      | .error _ => false) = true := by decide +kernel
    rw [hl] at this
    have := List.all_eq_true.1 this v hv
    cases v with
    | str s => exact ⟨_, .str s⟩
    | _ => cases this

/-- C162 is false of tallies: the groups of a sorted corpus are other ones. -/
theorem C162_refuted_tally : ∃ (a : QArgs) (sa : Srt.Args) (x y : Obj), Srt.run exCfg 10 sa x = some (.ok y) ∧ x.WF ∧ x.cls = .corpus ∧
    queryMain exQ stdCfg { a with files := [(lit! "f", .ok (.node x []))] } = ([lit! "f:", lit! " 1\tb, a, c", []], .done) ∧
    queryMain exQ stdCfg { a with files := [(lit! "f", .ok (.node y []))] } = ([lit! "f:", lit! " 1\ta, b, c", []], .done) := by
  have h : (exSorted exTally (Srt.pathCorpus (Srt.numIgt (lit! "b")))).2 = some ([lit! "f:", lit! " 1\ta, b, c", []], .done) := by decide +kernel
  simp only [exSorted] at h
  split at h
  · rename_i y hy
    exact ⟨exTally, _, _, y, hy, wf_of_B (n := 9) (by decide +kernel), rfl, by decide +kernel, Option.some.inj h⟩
  · cases h

/-- the sum of the numbers of different results in the output files -/
def outUnique (env : Part.PEnv) (infiles : List Str) (path : Str) : Py Nat := do
  let out ← Part.run env infiles
  (mapPy (fun (o : Str × Obj) => unique env.cfg (.node o.2 []) path) out).map List.sum

/-- C162 is false of `--unique` and partitions: what is in two files is counted twice; `--count` adds up. -/
theorem C162_refuted_unique :
    (unique (Part.exEnv Part.mdFile Part.mdFile).cfg (.node Part.mdFile.corpus []) (lit! "igt/tier/@type")).toOption = some 2 ∧
    (outUnique (Part.exEnv Part.mdFile Part.mdFile) [lit! "1"] (lit! "igt/tier/@type")).toOption = some 3 ∧
    (count (Part.exEnv Part.mdFile Part.mdFile).cfg (.node Part.mdFile.corpus []) (lit! "igt/tier/@type")).toOption = some 3 := by
  refine ⟨?_, ?_, ?_⟩ <;> decide +kernel

/-- equal corpora whose attributes are in another order -/
example : (∀ act, Opt.act act ∈ [Opt.act (.find (lit! "igt/@a"))] → ∀ q ∈ act.paths, ':' ∉ q ∧ ('@' ∉ q ∨ '*' ∉ q)) ∧
    Srt.Equal (exAtts none [(lit! "a", lit! "1"), (lit! "b", lit! "2")]) (exAtts none [(lit! "b", lit! "2"), (lit! "a", lit! "1")]) ∧
    queryMain exQ stdCfg ⟨[.act (.find (lit! "igt/@a")), .description (lit! "{match}")], none, false,
      [(lit! "f", .ok (.node (exAtts none [(lit! "a", lit! "1"), (lit! "b", lit! "2")]) []))]⟩ = ([lit! "f:", lit! "  1", []], .done) := by
  refine ⟨?_, ⟨wf_of_B (n := 9) (by decide +kernel), wf_of_B (n := 9) (by decide +kernel), rfl, by decide +kernel⟩, by decide +kernel⟩
  intro act h q hq
  simp only [List.mem_singleton, Opt.act.injEq] at h
  subst h
  simp only [Action.paths, List.mem_singleton] at hq
  subst hq
  decide

end
end Xigt.Qry
