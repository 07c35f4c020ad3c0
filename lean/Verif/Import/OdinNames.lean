import Verif.Import.OdinValid
import Verif.Igt.Warn
import Verif.Igt.RefProps
import Verif.Xml.AttrOrder
/-
C171: finding the lines of ODIN blocks by name in what the importer (/repo/xigt/importers/odin.py) makes of them:
XigtContainerMixin.get (/repo/xigt/mixins.py:50-60, 81-86), Igt.get_item (/repo/xigt/model.py:190-193) and Item.value
(/repo/xigt/model.py:373-380), and the warnings of C169.
-/
set_option linter.unusedSectionVars false

namespace Xigt.Odin
open Xigt.Vld

section
variable [Uni]

/-! ### Specification -/

/-- the line numbered `n` from 0 of the block with the ID is found in the IGTs by its name, with its cleaned text and its other data -/
def LineFound (allowed : Entry → List Str) (o : Opts) (igts : List Obj) (i : Str) (n : Nat) (l : Dict Str Str) : Prop :=
  ∃ g t x c, contGet igts i = some g ∧ contGet g.kids (lit! "r") = some t ∧ contGet t.kids (lit! "r" ++ natStr (n + 1)) = some x ∧
    igtGetItem (newIgt allowed g) (some (lit! "r" ++ natStr (n + 1))) = some ⟨some t, x⟩ ∧
    Dict.get? l (lit! "content") = some c ∧ (∀ fuel, value (fuel + 1) (some g) (some t) x = .ok (some (clean c o.repl))) ∧
    ∀ k, k ≠ lit! "content" → Dict.get? x.data.attrs k = Dict.get? l k

/-! ### Proofs -/

/-- the tier of a block, and the items of its lines -/
def Lines (o : Opts) (b : Block) (g : Obj) : Prop :=
  ∃ t, g.kids = [t] ∧ t.data.id = some (lit! "r") ∧ t.kids.length = (b.lines.getD []).length ∧
    ∀ (n : Nat) (l : Dict Str Str) (y : Obj), (b.lines.getD [])[n]? = some l → t.kids[n]? = some y →
      y.data.id = some (lit! "r" ++ natStr (n + 1)) ∧ (∃ c, Dict.get? l (lit! "content") = some c ∧ y.data.text = some (clean c o.repl)) ∧
      (l.WF → ∀ k, k ≠ lit! "content" → Dict.get? y.data.attrs k = Dict.get? l k)

theorem imported_lines {title : Str → Str} {o : Opts} {b : Block} {g : Obj} (h : makeIgt title o b = .ok g) :
    Lines o b g ∧ g.data.id = b.igtId := by
  obtain ⟨d, f, l, ty, hc⟩ := C75_incomplete title o b g h
  obtain ⟨g', hg', hi⟩ := C75_complete title o b d f l ty hc
  rw [hg'] at h
  cases h
  obtain ⟨t, ht, hd, -, hlen, hline⟩ := hi.tier
  refine ⟨⟨t, ht, by rw [hd], hlen, fun n l y hl hy => ?_⟩, hi.id⟩
  have hx := hline n l y hl hy
  exact ⟨hx.id, hx.text, fun w k hk => by rw [hx.attrs w, if_neg hk]⟩

theorem Lines.same [XmlLex] {o : Opts} {b : Block} {x y : Obj} (h : SameData x y) (hw : ∀ z ∈ allItems y, z.WF) (hy : Lines o b y) : Lines o b x := by
  obtain ⟨u, hk, h1, h2, h3⟩ := hy
  have hl := (same_inv h).2.2.2.1
  rw [hk] at hl
  obtain ⟨t, ht⟩ : ∃ t, x.kids = [t] := List.length_eq_one_iff.1 hl
  obtain ⟨u', hu', hs⟩ := same_left h (a := t) (by rw [ht]; simp)
  rw [hk] at hu'
  cases List.mem_singleton.1 hu'
  have hlen := (same_inv hs).2.2.2.1
  refine ⟨t, ht, (same_inv hs).1.trans h1, hlen.trans h2, fun n l z hln hz => ?_⟩
  obtain ⟨hzl, -⟩ := List.getElem?_eq_some_iff.1 hz
  rw [hlen] at hzl
  have hv := List.getElem?_eq_getElem hzl
  have hsz := (same_inv hs).2.2.2.2 n z _ hz hv
  obtain ⟨e1, ⟨c, e2, e3⟩, e4⟩ := h3 n l _ hln hv
  refine ⟨(same_inv hsz).1.trans e1, ⟨c, e2, (same_inv hsz).2.1.trans e3⟩, fun w k hkc => ?_⟩
  rw [← e4 w k hkc]
  have hwf := hw (u.kids[n]'hzl) (List.mem_flatMap.2 ⟨u, by rw [hk]; simp, List.getElem_mem hzl⟩)
  have hperm := (same_inv hsz).2.2.1
  revert hwf hperm
  generalize u.kids[n]'hzl = v
  intro hwf hperm
  cases hwf with
  | mk hattrs => exact (Ord.get?_perm hattrs hperm.symm k).symm

theorem Lines.ids {o : Opts} {b : Block} {g : Obj} (h : Lines o b g) :
    ((allItems g).map fun x => x.data.id) = (List.range (b.lines.getD []).length).map fun k => some (lit! "r" ++ natStr (k + 1)) := by
  obtain ⟨t, hk, -, h2, h3⟩ := h
  have : allItems g = t.kids := by simp [allItems, hk]
  rw [this, ← h2]
  apply List.ext_getElem?
  intro k
  rw [List.getElem?_map, List.getElem?_map]
  cases hy : t.kids[k]? with
  | none =>
    rw [List.getElem?_eq_none_iff] at hy
    rw [List.getElem?_eq_none_iff.2 (by simpa using hy)]
    rfl
  | some y =>
    obtain ⟨hl, -⟩ := List.getElem?_eq_some_iff.1 hy
    rw [List.getElem?_range hl]
    simp [(h3 k _ y (List.getElem?_eq_getElem (h2 ▸ hl)) hy).1]

theorem Lines.nodup {o : Opts} {b : Block} {g : Obj} (h : Lines o b g) : ((allItems g).map fun x => x.data.id).Nodup := by
  rw [h.ids, List.nodup_iff_pairwise_ne, List.pairwise_map]
  refine List.Pairwise.imp ?_ (List.nodup_iff_pairwise_ne.1 List.nodup_range)
  intro a b hab e
  simp only [Option.some.injEq, List.append_cancel_left_eq] at e
  have := natStr_inj e
  omega

theorem nodup_some {α : Type} {l : List α} {f : α → Option Str} (h : (l.map f).Nodup) : (l.filterMap f).Nodup := by
  rw [List.nodup_iff_pairwise_ne, List.pairwise_filterMap]
  rw [List.nodup_iff_pairwise_ne, List.pairwise_map] at h
  refine h.imp ?_
  intro x y hne a ha b hb e
  exact hne (by rw [ha, hb, e])

theorem contGet_uniq {xs : List Obj} (h : (xs.filterMap fun x => x.data.id).Nodup) {x : Obj} (hx : x ∈ xs) {i : Str} (hi : x.data.id = some i) :
    contGet xs i = some x := by
  unfold contGet
  rw [find?_uniq (f := fun x : Obj => x.data.id) h hx hi]

theorem Lines.found {allowed : Entry → List Str} {o : Opts} {b : Block} {g : Obj} (h : Lines o b g) {igts : List Obj}
    (hd : (igts.filterMap fun x => x.data.id).Nodup) (hg : g ∈ igts) {i : Str} (hi : g.data.id = some i) {n : Nat} {l : Dict Str Str}
    (hl : (b.lines.getD [])[n]? = some l) (hw : l.WF) : LineFound allowed o igts i n l := by
  have hnd := h.nodup
  obtain ⟨t, hk, h1, h2, h3⟩ := h
  obtain ⟨hn, -⟩ := List.getElem?_eq_some_iff.1 hl
  rw [← h2] at hn
  have hy := List.getElem?_eq_getElem hn
  obtain ⟨e1, ⟨c, e2, e3⟩, e4⟩ := h3 n l _ hl hy
  have hmem := List.getElem_mem hn
  generalize t.kids[n]'hn = y at *
  have hitems : allItems g = t.kids := by simp [allItems, hk]
  refine ⟨g, t, y, c, contGet_uniq hd hg hi, ?_, ?_, ?_, e2, ?_, e4 hw⟩
  · rw [hk]
    exact contGet_uniq (by simp [h1]) (by simp) h1
  · rw [hitems] at hnd
    exact contGet_uniq (nodup_some hnd) hmem e1
  · refine refresh_indexed allowed { igt := g } ?_ ⟨some t, y⟩ (mem_itemEntries.2 ⟨t, show t ∈ g.kids by rw [hk]; simp, rfl, hmem⟩) _ e1
    have := nodup_some hnd
    rw [← allItems_nodes, List.filterMap_map] at this
    rw [itemEntries, List.filterMap_map]
    exact this
  · intro fuel
    rw [value, e3]

theorem odinIgts_ids {title : Str → Str} {o : Opts} {bs : List Block} {xs : List Obj} (h : odinIgts title o bs = .ok xs) :
    (xs.filterMap fun x => x.data.id) = bs.filterMap fun b => b.igtId := by
  replace h := (C75_all title o bs xs).1 h
  induction h with
  | nil => rfl
  | cons hx _ ih => rw [List.filterMap_cons, List.filterMap_cons, (imported_lines hx).2, ih]

/-- **C171** for blocks with different IDs: every line of every block with an ID is found by its name.  Missing: blocks with the same ID
(`C171_refuted`). -/
theorem C171_partial (title : Str → Str) (o : Opts) (bs : List Block) (hd : (bs.filterMap fun b => b.igtId).Nodup) (xs : List Obj)
    (h : odinIgts title o bs = .ok xs) (allowed : Entry → List Str) (b : Block) (hb : b ∈ bs) (i : Str) (hi : b.igtId = some i) (n : Nat)
    (l : Dict Str Str) (hl : (b.lines.getD [])[n]? = some l) (hw : l.WF) : LineFound allowed o xs i n l := by
  have hids := odinIgts_ids h
  obtain ⟨g, hg, hm⟩ := ((C75_all title o bs xs).1 h).mem_left b hb
  obtain ⟨h1, h2⟩ := imported_lines hm
  exact h1.found (by rw [hids]; exact hd) hg (by rw [h2, hi]) hl hw

/-- **C171**: in the IGT of a block nothing else is an item. -/
theorem C171_only (title : Str → Str) (o : Opts) (b : Block) (g : Obj) (h : makeIgt title o b = .ok g) (allowed : Entry → List Str)
    (i : Option Str) (e : Entry) (he : igtGetItem (newIgt allowed g) i = some e) :
    ∃ n, n < (b.lines.getD []).length ∧ i = some (lit! "r" ++ natStr (n + 1)) := by
  have hget : igtGetItem (newIgt allowed g) i = _ := get?_refreshItems allowed { igt := g } i
  rw [hget] at he
  cases hf : (itemEntries g).reverse.find? (fun e => decide (e.id = i)) with
  | none =>
    rw [hf] at he
    cases he
  | some e' =>
    rw [hf] at he
    cases he
    have hm := List.mem_reverse.1 (List.mem_of_find?_eq_some hf)
    have hp := List.find?_some hf
    obtain ⟨t, ht, _, hx⟩ := mem_itemEntries.1 hm
    have : e.id ∈ (allItems g).map fun x => x.data.id := List.mem_map.2 ⟨e.obj, List.mem_flatMap.2 ⟨t, ht, hx⟩, rfl⟩
    rw [(imported_lines h).1.ids] at this
    obtain ⟨n, hn, e1⟩ := List.mem_map.1 this
    refine ⟨n, List.mem_range.1 hn, ?_⟩
    rw [e1]
    exact (of_decide_eq_true hp).symm

end

section
variable [Uni] [XmlLex]

theorem file_wf {title : Str → Str} {o : Opts} (hn : ∀ s ∈ names, XmlLex.ncName s = true) {r : Char} (hr : Legal r) (hr' : r ≠ '\r') (ho : o.repl = [r])
    {b : Block} (hb : ∃ doc first last types, Writable title o b doc first last types) {g : Obj} (hg : makeIgt title o b = .ok g) :
    g.cls = .igt ∧ g.WF := by
  obtain ⟨d, f, l, ty, hw⟩ := hb
  obtain ⟨h1, _, h2⟩ := igt_fine title o hn hr hr' ho b d f l ty hw g hg
  exact ⟨h1, h2.1⟩

/-- **C171**: there are no warnings. -/
theorem C171_unwarned (title : Str → Str) (o : Opts) (hn : ∀ s ∈ names, XmlLex.ncName s = true) {r : Char} (hr : Legal r) (hr' : r ≠ '\r')
    (ho : o.repl = [r]) (b : Block) (hb : ∃ doc first last types, Writable title o b doc first last types) (g : Obj)
    (hg : makeIgt title o b = .ok g) : refreshWarnings { igt := g } = [] := by
  obtain ⟨h1, h2⟩ := file_wf hn hr hr' ho hb hg
  have hl := (imported_lines hg).1
  refine (C169_partial g h2 h1 ?_).1 hl.nodup
  intro x hx e
  have : x.data.id ∈ (allItems g).map fun x => x.data.id := List.mem_map.2 ⟨x, hx, rfl⟩
  rw [hl.ids, e] at this
  obtain ⟨n, _, h⟩ := List.mem_map.1 this
  cases h

/-- **C171**, through the file: with what C76 asks for as well, so it is in what is read. -/
theorem C171_file (title : Str → Str) (o : Opts) (hn : ∀ s ∈ names, XmlLex.ncName s = true) {r : Char} (hr : Legal r) (hr' : r ≠ '\r')
    (ho : o.repl = [r]) (bs : List Block) (hb : ∀ b ∈ bs, ∃ doc first last types, Writable title o b doc first last types)
    (hd : (bs.filterMap fun b => b.igtId).Nodup) (look : Nat → Nat) (ind : Option Int) (allowed : Entry → List Str) :
    ∃ xs y, odinIgts title o bs = .ok xs ∧ writeRead look ind (corpus xs) = .ok y ∧ y.kids.length = bs.length ∧
      ∀ b ∈ bs, ∀ i, b.igtId = some i → ∀ n l, (b.lines.getD [])[n]? = some l → l.WF → LineFound allowed o y.kids i n l := by
  obtain ⟨xs, y, h1, h2, h3, -⟩ := C76_partial title o hn hr hr' ho bs hb hd look ind
  have hall := (C75_all title o bs xs).1 h1
  have hlen : ∀ {as : List Block} {cs : List Obj}, All2 (fun b x => makeIgt title o b = .ok x) as cs → as.length = cs.length := by
    intro as cs h
    induction h with
    | nil => rfl
    | cons _ _ ih => simp [ih]
  refine ⟨xs, y, h1, h2, (same_inv h3).2.2.2.1.trans (hlen hall).symm, ?_⟩
  intro b hbm i hi n l hl hw
  obtain ⟨g, hg, hm⟩ := hall.mem_left b hbm
  obtain ⟨k1, k2⟩ := imported_lines hm
  obtain ⟨g', hg', hs⟩ := same_right h3 (b := g) hg
  obtain ⟨c1, c2⟩ := file_wf hn hr hr' ho (hb b hbm) hm
  refine (k1.same hs fun z hz => (allItems_ok c2 c1 z hz).1).found ?_ hg' (by rw [(same_inv hs).1, k2, hi]) hl hw
  have : (y.kids.filterMap fun g => g.data.id) = xs.filterMap fun g => g.data.id := by
    have e := congrArg (List.filterMap id) (same_ids h3)
    rw [List.filterMap_map, List.filterMap_map] at e
    exact e
  rw [this, odinIgts_ids h1]
  exact hd

end

section
attribute [local instance] asciiUni asciiXml

/-- the second line of the block of C75 is found, in the IGTs and in the file -/
example : ∃ xs, odinIgts id {} [exBlock] = .ok xs ∧ LineFound stdAllowed {} xs (lit! "igt1") 1 [(lit! "content", lit! "dogs"), (lit! "tag", lit! "G")] :=
  ⟨_, rfl, C171_partial id {} [exBlock] (by decide) _ rfl stdAllowed exBlock (by simp) _ rfl 1 _ rfl (by unfold Dict.WF; decide)⟩

example : ∃ xs y, odinIgts id {} [exBlock] = .ok xs ∧ writeRead id (some 2) (corpus xs) = .ok y ∧
    LineFound stdAllowed {} y.kids (lit! "igt1") 1 [(lit! "content", lit! "dogs"), (lit! "tag", lit! "G")] := by
  obtain ⟨xs, y, h1, h2, -, h3⟩ := C171_file id {} (by decide +kernel) (r := '�') (by unfold Legal; decide) (by decide) rfl [exBlock]
    (by intro b hb; cases List.mem_singleton.1 hb; exact ⟨_, _, _, _, exBlock_writable⟩) (by decide) id (some 2) stdAllowed
  exact ⟨xs, y, h1, h2, h3 exBlock (by simp) _ rfl 1 _ rfl (by unfold Dict.WF; decide)⟩

/-- **C171** is false as stated of blocks with the same ID: only the lines of the first are found. -/
theorem C171_refuted : ∃ bs xs, odinIgts id {} bs = .ok xs ∧ ∃ b ∈ bs, ∃ i l, b.igtId = some i ∧ (b.lines.getD [])[0]? = some l ∧ l.WF ∧
    ¬ LineFound stdAllowed {} xs i 0 l := by
  refine ⟨[exBlock, { exBlock with lines := some [[(lit! "content", lit! "cats")]] }], _, rfl, _, List.mem_cons_of_mem _ (List.mem_cons_self ..),
    lit! "igt1", [(lit! "content", lit! "cats")], rfl, rfl, by unfold Dict.WF; decide, ?_⟩
  rintro ⟨g, t, x, c, h1, h2, h3, -, h4, h5, -⟩
  have h6 := h5 0
  cases h1
  cases h2
  cases h3
  cases h4
  revert h6
  decide +kernel

end
end Xigt.Odin
