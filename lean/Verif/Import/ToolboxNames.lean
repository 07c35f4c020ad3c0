import Verif.Import.ToolboxValid
import Verif.Igt.Warn
import Verif.Igt.RefProps
/-
C170: finding by name what the Toolbox importer (/repo/xigt/importers/toolbox.py) makes: Igt.get_any, Igt.get_item, dereference() and
referrers() (/repo/xigt/model.py:190-219, /repo/xigt/ref.py:230-271), and the warnings of C169.
-/
set_option linter.unusedSectionVars false

namespace Xigt.Tbx
open Xigt.Vld

section
variable [Uni] [Lex]

/-! ### Specification -/

/-- the object refers to the one with this entry, and is among the referrers of that one -/
def Leads (allowed : Entry → List Str) (st : IgtState) (x : Obj) (ra : Str) (e : Entry) : Prop :=
  dereference st x ra = .ok (some e) ∧ ∃ i j m, x.data.id = some i ∧ e.obj.data.id = some j ∧ referrers allowed st j (some [ra]) = .ok m ∧
    ∃ l, Dict.get? m ra = some l ∧ i ∈ l

/-- everything is found by its ID, and what refers to something leads to a tier, and items to items of this tier -/
structure Named (allowed : Entry → List Str) (g : Obj) (st : IgtState) : Prop where
  tiers : ∀ t ∈ g.kids, ∃ i, t.data.id = some i ∧ getAny st i = some ⟨none, t⟩
  items : ∀ t ∈ g.kids, ∀ x ∈ t.kids, ∃ i, x.data.id = some i ∧ igtGetItem st (some i) = some ⟨some t, x⟩ ∧ getAny st i = some ⟨some t, x⟩
  refs : ∀ t ∈ g.kids, (t.data.attrs = [] ∧ ∀ x ∈ t.kids, x.data.attrs = []) ∨
    ∃ ra, ∃ u ∈ g.kids, Leads allowed st t ra ⟨none, u⟩ ∧ ∀ x ∈ t.kids, ∃ y ∈ u.kids, Leads allowed st x ra ⟨some u, y⟩

/-! ### Proofs -/

theorem numbered_ends (a : Str) (n : Nat) : ∃ c, (a ++ natStr n).getLast? = some c ∧ (Uni.digit c).isSome = true := by
  have hne := natStr_ne_nil n
  refine ⟨(natStr n).getLast hne, ?_, natStr_digits n _ (List.getLast_mem hne)⟩
  rw [List.getLast?_append, List.getLast?_eq_some_getLast hne]
  rfl

theorem itemIds_nodup {g : Obj} (h : Good g.kids) : ((allItems g).map fun x => x.data.id).Nodup := by
  have key : ∀ ts : List Obj, (ts.map fun t => t.data.id).Nodup → (∀ t ∈ ts, t ∈ g.kids) → ((ts.flatMap Obj.kids).map fun x => x.data.id).Nodup := by
    intro ts
    induction ts with
    | nil => intro _ _; exact List.nodup_nil
    | cons t ts ih =>
      intro hd hs
      rw [List.map_cons, List.nodup_cons] at hd
      rw [List.flatMap_cons, List.map_append, List.nodup_append]
      refine ⟨?_, ih hd.2 fun u hu => hs u (List.mem_cons_of_mem _ hu), ?_⟩
      · obtain ⟨tid, n, -, -, h3, -⟩ := h.tiers t (hs t (List.mem_cons_self ..))
        rw [h3, List.nodup_iff_pairwise_ne, List.pairwise_map]
        refine List.Pairwise.imp ?_ (List.nodup_iff_pairwise_ne.1 List.nodup_range)
        intro a b hab e
        simp only [Option.some.injEq, List.append_cancel_left_eq] at e
        have := natStr_inj e
        omega
      · intro a ha b hb e
        subst e
        obtain ⟨x, hx, ex⟩ := List.mem_map.1 ha
        obtain ⟨y, hy, ey⟩ := List.mem_map.1 hb
        obtain ⟨u, hu, hy⟩ := List.mem_flatMap.1 hy
        obtain ⟨p, m, p1, p2, p3, -⟩ := h.item (hs t (List.mem_cons_self ..)) hx
        obtain ⟨q, n, q1, q2, q3, -⟩ := h.item (hs u (List.mem_cons_of_mem _ hu)) hy
        rw [p3] at ex
        rw [q3, ← ex] at ey
        have := number_inj q2 p2 (Option.some.inj ey)
        subst this
        exact hd.1 (List.mem_map.2 ⟨u, hu, by rw [q1, p1]⟩)
  exact key g.kids h.distinct fun _ => id

theorem Good.igtOK {g : Obj} (h : Good g.kids) : IgtOK g := by
  have hitem : ∀ e ∈ itemEntries g, ∃ tid k, TierId tid ∧ e.id = some (tid ++ natStr k) := by
    intro e he
    obtain ⟨t, ht, _, hx⟩ := mem_itemEntries.1 he
    obtain ⟨tid, k, _, h2, h3, _⟩ := h.item ht hx
    exact ⟨tid, k, h2, h3⟩
  have htier : ∀ e ∈ tierEntries g, ∃ tid, TierId tid ∧ e.id = some tid := by
    intro e he
    obtain ⟨_, ht⟩ := mem_tierEntries.1 he
    obtain ⟨tid, _, h1, h2, _⟩ := h.tiers _ ht
    exact ⟨tid, h2, h1⟩
  have fm : ∀ {l : List Entry}, (l.map Entry.id).Nodup → (l.filterMap Entry.id).Nodup := by
    intro l hl
    rw [List.nodup_iff_pairwise_ne, List.pairwise_filterMap]
    rw [List.nodup_iff_pairwise_ne, List.pairwise_map] at hl
    refine hl.imp ?_
    intro x y hne a ha b hb e
    exact hne (by rw [ha, hb, e])
  constructor
  · rw [List.filterMap_append, List.nodup_append]
    refine ⟨fm ?_, fm ?_, ?_⟩
    · have := h.distinct
      rw [tierEntries, List.map_map]
      exact this
    · have := itemIds_nodup h
      rw [← allItems_nodes, List.map_map] at this
      rw [itemEntries, List.map_map]
      exact this
    · intro a ha b hb e
      subst e
      obtain ⟨e, he, hi⟩ := List.mem_filterMap.1 ha
      obtain ⟨f, hf, hj⟩ := List.mem_filterMap.1 hb
      obtain ⟨tid, h1, h2⟩ := htier e he
      obtain ⟨tid', k, _, h4⟩ := hitem f hf
      rw [hi] at h2
      cases h2
      rw [hj] at h4
      cases h4
      obtain ⟨c, hc, hd⟩ := numbered_ends tid' k
      rw [h1.2 c hc] at hd
      cases hd
  · intro e he i hi
    rcases List.mem_append.1 he with he | he
    · obtain ⟨tid, h1, h2⟩ := htier e he
      rw [hi] at h2; cases h2
      exact Vld.idAccepted_of h1.1
    · obtain ⟨tid, k, h1, h2⟩ := hitem e he
      rw [hi] at h2; cases h2
      exact Vld.idAccepted_of (h1.1.number k)

theorem leads_of {allowed : Entry → List Str} {st : IgtState} (h : IgtOK st.igt) (hx : Indexed st) {lv : Level} {d e : Entry}
    (hd : d ∈ levelEntries st.igt lv) (he : e ∈ levelEntries st.igt lv) {ra r i j : Str} (hi : d.obj.data.id = some i) (hj : e.obj.data.id = some j)
    (ha : d.obj.data.attrs = [(ra, r)]) (hr : ids r = [j]) : Leads allowed st d.obj ra e := by
  have hg : getAny st j = some e := getAny_level h hx he hj
  have hget : Dict.get? d.obj.data.attrs ra = some r := by rw [ha]; simp [Dict.get?]
  refine ⟨?_, i, j, ?_⟩
  · unfold dereference
    simp only [Dict.getItem, hget, bind, Except.bind, hr, hg]
  · obtain ⟨m, hm, hl⟩ := referrers_level (allowed := allowed) h hx (a := j) (lv := lv) (List.mem_filterMap.2 ⟨e, he, hj⟩) (some [ra])
      (by intro e; simp)
    have hmem : i ∈ listed m ra := by
      rw [hl ra, List.mem_filterMap]
      refine ⟨d, hd, ?_⟩
      rw [if_pos ⟨by simp, by rw [attr0, hget, Option.getD_some, hr]; simp⟩]
      exact hi
    refine ⟨m, hi, hj, hm, ?_⟩
    unfold listed at hmem
    cases hc : Dict.get? m ra with
    | none => rw [hc] at hmem; cases hmem
    | some l => rw [hc] at hmem; exact ⟨l, rfl, hmem⟩

theorem Good.named (allowed : Entry → List Str) {g : Obj} (h : Good g.kids) : Named allowed g (newIgt allowed g) := by
  have hok : IgtOK (newIgt allowed g).igt := h.igtOK
  have hx : Indexed (newIgt allowed g) := refresh_indexed allowed { igt := g } h.igtOK.items
  refine ⟨?_, ?_, ?_⟩
  · intro t ht
    obtain ⟨tid, _, h1, _⟩ := h.tiers t ht
    exact ⟨tid, h1, getAny_tier hok (e := ⟨none, t⟩) (mem_tierEntries.2 ⟨rfl, ht⟩) h1⟩
  · intro t ht x hxm
    obtain ⟨tid, k, _, _, h3, _⟩ := h.item ht hxm
    have he : (⟨some t, x⟩ : Entry) ∈ itemEntries (newIgt allowed g).igt := mem_itemEntries.2 ⟨t, ht, rfl, hxm⟩
    exact ⟨_, h3, hx _ he _ h3, getAny_item hok hx he h3⟩
  · intro t ht
    rcases h.links t ht with hl | ⟨ra, u, s, hu, hs, h1, h2⟩
    · exact .inl hl
    · refine .inr ⟨ra, u, hu, ?_, ?_⟩
      · obtain ⟨tid, _, e1, _⟩ := h.tiers t ht
        obtain ⟨uid, _, e2, e3, _⟩ := h.tiers u hu
        rw [hs] at e2
        cases e2
        exact leads_of (lv := .tiers) (d := ⟨none, t⟩) (e := ⟨none, u⟩) hok hx (mem_tierEntries.2 ⟨rfl, ht⟩) (mem_tierEntries.2 ⟨rfl, hu⟩) e1 hs h1
          (ids_ref e3.1 (.inl rfl))
      · intro x hxm
        obtain ⟨y, hy, i, r, hyi, hxa, hr⟩ := h2 x hxm
        obtain ⟨tid, k, _, _, e3, _⟩ := h.item ht hxm
        obtain ⟨uid, l, _, f2, f3, _⟩ := h.item hu hy
        have hii : IdOK i := by
          rw [hyi] at f3
          cases f3
          exact f2.1.number l
        exact ⟨y, hy, leads_of (lv := .items) (d := ⟨some t, x⟩) (e := ⟨some u, y⟩) hok hx (mem_itemEntries.2 ⟨t, ht, rfl, hxm⟩)
          (mem_itemEntries.2 ⟨u, hu, rfl, hy⟩) e3 hyi hxa (ids_ref hii hr)⟩

end

section
variable [Uni] [XmlLex] [Lex]

/-- **C170**, for tier IDs that do not end in a digit: in an imported IGT everything is found by its ID, and references lead to what they name
and back.  Missing: other tier IDs (`C170_refuted`). -/
theorem C170_partial (o : Opts) (ho : TierIds o) (k : Str) (rs : List Record) (xs : List Obj) (h : toolboxIgts o k rs = .ok xs)
    (allowed : Entry → List Str) : ∀ g ∈ xs, Named allowed g (newIgt allowed g) :=
  fun g hg => (toolboxIgts_good ho rs xs h g hg).named allowed

/-- **C170**: no two items have the same ID, and there are no warnings. -/
theorem C170_unwarned (o : Opts) (k : Str) (ho : OptsOK o) (hid : TierIds o) (rs : List Record) (hr : ∀ r ∈ rs, RecordOK o k r) (xs : List Obj)
    (h : toolboxIgts o k rs = .ok xs) : ∀ g ∈ xs, ((allItems g).map fun x => x.data.id).Nodup ∧ refreshWarnings { igt := g } = [] := by
  intro g hg
  have hgood := toolboxIgts_good hid rs xs h g hg
  have hf := igts_fine ho rs xs hr h g hg
  refine ⟨itemIds_nodup hgood, (C169_partial g hf.2.1 hf.1 ?_).1 (itemIds_nodup hgood)⟩
  intro x hx
  obtain ⟨t, ht, hx⟩ := List.mem_flatMap.1 hx
  obtain ⟨_, _, _, _, h3, _⟩ := hgood.item ht hx
  rw [h3]
  simp

/-- **C170**, through the file: so it is in what is read. -/
theorem C170_file (o : Opts) (k : Str) (ho : OptsOK o) (hid : TierIds o) (rs : List Record) (hr : ∀ r ∈ rs, RecordOK o k r)
    (xs : List Obj) (h : toolboxIgts o k rs = .ok xs) (hd : (xs.map fun x => x.data.id).Nodup) (look : Nat → Nat)
    (ind : Option Int) (allowed : Entry → List Str) :
    ∃ y, writeRead look ind (corpus xs) = .ok y ∧ y.kids.length = xs.length ∧ ∀ g ∈ y.kids, Named allowed g (newIgt allowed g) := by
  obtain ⟨y, h1, h2, -⟩ := C93_partial o k ho rs hr xs h hd look ind
  refine ⟨y, h1, ?_, fun g hg => ?_⟩
  · have := congrArg List.length (same_ids h2)
    simpa [corpus] using this
  · obtain ⟨b, hb, hs⟩ := same_left h2 hg
    exact (Good.same hs (toolboxIgts_good hid rs xs h b hb)).named allowed

end

section
attribute [local instance] asciiUni asciiXml Tbx.asciiLex

/-- two tiers of the imported IGT of C136 refer to others, and so do their items -/
example : ∃ xs, toolboxIgts defaults (lit! "\\ref") [full] = .ok xs ∧
    (xs.map fun g => g.kids.map fun t => (t.data.attrs.length, t.kids.map fun x => x.data.attrs.length)) = [[(0, [0]), (1, [1, 1]), (1, [1, 1, 1]), (1, [1, 1, 1])]] ∧
    ∀ g ∈ xs, Named stdAllowed g (newIgt stdAllowed g) :=
  ⟨_, rfl, by decide +kernel, C170_partial defaults defaults_tierIds (lit! "\\ref") [full] _ rfl stdAllowed⟩

/-- the hypotheses of `C170_unwarned` and `C170_file` are met -/
example : OptsOK defaults ∧ TierIds defaults ∧ RecordOK defaults (lit! "\\ref") (oneWord (lit! "7") (lit! "inu")) :=
  ⟨defaults_ok, defaults_tierIds, oneWord_ok⟩

/-- **C170** is false as stated: if a tier has the ID of another followed by a digit, an item of one is not found, but one of the other, and there
is a warning. -/
theorem C170_refuted : ∃ o k rs xs, toolboxIgts o k rs = .ok xs ∧ (∃ g ∈ xs, ∃ t ∈ g.kids, ∃ x ∈ t.kids, ∃ e,
    igtGetItem (newIgt stdAllowed g) x.data.id = some e ∧ e.obj.data.text ≠ x.data.text) ∧
    (xs.map fun g => refreshWarnings { igt := g }) = [[lit! "Item \"a11\" already exists in Igt."]] := by
  refine ⟨numbered, lit! "\\ref", [eleven], _, rfl, ?_, by decide +kernel⟩
  refine ⟨_, List.mem_cons_self .., _, List.mem_cons_self .., _, List.mem_of_getElem? (i := 10) rfl, _, rfl, by decide +kernel⟩

end
end Xigt.Tbx
