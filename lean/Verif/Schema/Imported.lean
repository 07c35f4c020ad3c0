import Verif.Schema.Align
import Verif.Import.ToolboxXml
/-
C102: whether what the importers write is valid against xigt-structure.rnc.
-/

set_option linter.unusedSectionVars false

namespace Xigt.Rng

section
variable [Uni] [XmlLex] [Xsd]

/-! ### Identifiers with numbers -/

theorem digit_idCh {c : Char} (h : (Uni.digit c).isSome = true) : idCh c = true := by
  obtain ⟨n, hn⟩ := Option.isSome_iff_exists.1 h
  have hw := Uni.digit_word c n hn
  have hu : c ≠ '_' := by
    rintro rfl
    rw [Uni.ascii_digit _ (by decide)] at hn
    rw [if_neg (by decide)] at hn
    cases hn
  simp only [idCh, Bool.or_eq_true]
  exact .inr (Xsd.word_py c hw hu)

theorem IdFits.num {i : Str} (h : IdFits i) (n : Nat) : IdFits (i ++ natStr n) := by
  obtain ⟨c, r, rfl, hc, hr⟩ := h
  refine ⟨c, r ++ natStr n, rfl, hc, fun x hx => ?_⟩
  rcases List.mem_append.1 hx with hx | hx
  · exact hr x hx
  · exact digit_idCh (natStr_digits n x hx)

/-- letters of ASCII only -/
theorem fits_lit {c : Char} {r : Str} (hc : letter c = true) (h : r.all letter = true) : IdFits (c :: r) := by
  refine id_fits ⟨c, r, rfl, letter_iff.symm.trans hc, fun x hx => ?_⟩
  have := List.all_eq_true.1 h x hx
  simp only [letter, Bool.or_eq_true, Bool.and_eq_true, decide_eq_true_eq, Char.le_def, UInt32.le_iff_toNat_le] at this
  simp only [idChar, Bool.or_eq_true]
  right
  have hx' : ('a'.val.toNat ≤ x.toNat ∧ x.toNat ≤ 'z'.val.toNat) ∨ ('A'.val.toNat ≤ x.toNat ∧ x.toNat ≤ 'Z'.val.toNat) := this
  have e1 : 'a'.val.toNat = 97 := by decide
  have e2 : 'z'.val.toNat = 122 := by decide
  have e3 : 'A'.val.toNat = 65 := by decide
  have e4 : 'Z'.val.toNat = 90 := by decide
  rw [e1, e2, e3, e4] at hx'
  rw [Uni.ascii_word x (by omega)]
  simp only [Bool.or_eq_true, Bool.and_eq_true, decide_eq_true_eq, beq_iff_eq]
  omega

/-! ### ODIN -/

/-- a line whose data other than its content can be attributes of an item: no `alignment` and
`segmentation` that are not expressions, and not both -/
def LineFits (l : Dict Str Str) : Prop :=
  (∀ v, (ALN, v) ∈ l → AlgnFits v) ∧ (∀ v, (SEG, v) ∈ l → AlgnFits v) ∧ (Lacks l ALN ∨ Lacks l SEG)

/-- a block with an identifier the schema allows, and such lines -/
def BlockFits (b : Odin.Block) : Prop :=
  (∃ i, b.igtId = some i ∧ IdFits i) ∧ ∀ l ∈ b.lines.getD [], LineFits l

theorem mem_del {l : Dict Str Str} (hw : l.WF) {c k v : Str} : (k, v) ∈ Dict.del l c ↔ (k, v) ∈ l ∧ k ≠ c := by
  constructor
  · intro h
    have hg := Dict.get?_of_mem (hw.del c) h
    rw [Dict.get?_del hw] at hg
    split at hg
    · cases hg
    · rename_i hne
      exact ⟨Dict.get?_mem hg, Ne.symm hne⟩
  · rintro ⟨h, hne⟩
    refine Dict.get?_mem ?_
    rw [Dict.get?_del hw, if_neg (Ne.symm hne)]
    exact Dict.get?_of_mem hw h

theorem line_refs {l : Dict Str Str} (hw : l.WF) : RefsFit (Dict.del l (lit! "content")) ↔ LineFits l := by
  have ha : ∀ v, (ALN, v) ∈ Dict.del l (lit! "content") ↔ (ALN, v) ∈ l := fun v =>
    (mem_del hw).trans ⟨fun h => h.1, fun h => ⟨h, by decide⟩⟩
  have hs : ∀ v, (SEG, v) ∈ Dict.del l (lit! "content") ↔ (SEG, v) ∈ l := fun v =>
    (mem_del hw).trans ⟨fun h => h.1, fun h => ⟨h, by decide⟩⟩
  have hc : ∀ v, (CNT, v) ∉ Dict.del l (lit! "content") := fun v h => ((mem_del hw).1 h).2 (by decide)
  simp only [RefsFit, LineFits, Lacks, ha, hs, hc]
  constructor
  · rintro (⟨h1, -, h2⟩ | ⟨h1, h2, -⟩)
    · exact ⟨h1, fun v h => absurd h (h2 v), .inr h2⟩
    · exact ⟨fun v h => absurd h (h2 v), h1, .inl h2⟩
  · rintro ⟨h1, h2, h3 | h3⟩
    · exact .inr ⟨h2, h3, fun v h => h⟩
    · exact .inl ⟨h1, by simp, h3⟩

theorem rawItems_fit {o : Odin.Opts} : ∀ (ls : List (Dict Str Str)) (j : Nat) (xs : List Obj), (∀ l ∈ ls, l.WF) →
    Odin.rawItems o ls j = .ok xs → ((∀ x ∈ xs, ItemFits x) ↔ ∀ l ∈ ls, LineFits l) := by
  intro ls
  induction ls with
  | nil => intro j xs _ h; cases h; simp
  | cons l ls ih =>
    intro j xs hw h
    rw [Odin.rawItems] at h
    split at h
    · cases h
    simp only [bind, Except.bind] at h
    split at h
    · cases h
    rename_i x hx
    split at h
    · cases h
    rename_i ys hys
    cases h
    obtain ⟨rfl, _⟩ := Odin.construct_inv hx
    rw [List.forall_mem_cons, List.forall_mem_cons, ih _ _ (fun l h => hw l (by simp [h])) hys]
    refine and_congr_left' ?_
    rw [← line_refs (hw l (by simp))]
    exact ⟨fun h => h.2, fun h => ⟨⟨_, rfl, IdFits.num (fits_lit (c := 'r') (r := []) (by decide) (by decide)) j⟩, h⟩⟩

theorem md_fits (title : Str → Str) (o : Odin.Opts) (b : Odin.Block) : MdFits (Odin.mdObj title o b) := by
  have hm : ∀ n, IdFits (lit! "meta" ++ natStr n) := fun n =>
    IdFits.num (fits_lit (c := 'm') (r := lit! "eta") (by decide) (by decide)) n
  have hno : NoRefs ([] : List (Str × Str)) := ⟨fun v h => (by cases h), fun v h => (by cases h), fun v h => (by cases h)⟩
  refine ⟨by rintro i ⟨⟩, hno, ?_⟩
  intro m hmem
  rcases List.mem_append.1 hmem with h | h
  · unfold Odin.header at h
    split at h
    · cases List.mem_singleton.1 h
      exact ⟨by rintro i ⟨⟩; exact hm 1, hno, .inl rfl⟩
    · cases h
  · cases List.mem_singleton.1 h
    exact ⟨by rintro i ⟨⟩; exact hm _, hno, .inr rfl⟩

theorem igt_fits {title : Str → Str} {o : Odin.Opts} {b : Odin.Block} {doc first last types : Str}
    (h : Odin.Writable title o b doc first last types) {x : Obj} (hx : Odin.makeIgt title o b = .ok x) : IgtFits x ↔ BlockFits b := by
  obtain ⟨rg, hrg, hs⟩ := h.block.range
  rw [← Odin.split_two] at hs
  obtain ⟨xs, hxs, ht⟩ := Odin.rawTier_ok (o := o) h.block.lines
  unfold Odin.makeIgt Odin.attributes Odin.lineRange at hx
  simp only [hrg, hs, h.block.doc, h.block.types, Odin.metadata_ok, ht, bind, Except.bind, Odin.join_two] at hx
  obtain ⟨rfl, hid⟩ := Odin.construct_inv hx
  have hr := rawItems_fit _ _ _ (fun l hl => (h.lines l hl).1) hxs
  constructor
  · intro hf
    exact ⟨hf.1, hr.1 (hf.2.2.2 (.mk Odin.tierData [] xs) (by simp)).2.2.2.2⟩
  · intro hf
    refine ⟨hf.1, ⟨fun v hv => ?_, fun v hv => ?_, fun v hv => ?_⟩, ?_, ?_⟩
    · simp only [Obj.data_mk, List.mem_cons, Prod.mk.injEq, List.not_mem_nil, or_false] at hv
      rcases hv with ⟨h, _⟩ | ⟨h, _⟩ | ⟨h, _⟩ <;> exact absurd h (by decide)
    · simp only [Obj.data_mk, List.mem_cons, Prod.mk.injEq, List.not_mem_nil, or_false] at hv
      rcases hv with ⟨h, _⟩ | ⟨h, _⟩ | ⟨h, _⟩ <;> exact absurd h (by decide)
    · simp only [Obj.data_mk, List.mem_cons, Prod.mk.injEq, List.not_mem_nil, or_false] at hv
      rcases hv with ⟨h, _⟩ | ⟨h, _⟩ | ⟨h, _⟩ <;> exact absurd h (by decide)
    · intro m hm
      cases List.mem_singleton.1 hm
      exact md_fits title o b
    · intro t ht'
      cases List.mem_singleton.1 ht'
      refine ⟨⟨_, rfl, fits_lit (c := 'r') (r := []) (by decide) (by decide)⟩, rfl, ?_, by simp, hr.2 hf.2⟩
      refine .inl ⟨fun v hv => ?_, fun v hv => ?_, fun v hv => ?_⟩
      all_goals
        simp only [Obj.data_mk, Odin.tierData, List.mem_singleton, Prod.mk.injEq] at hv
        exact absurd hv.1 (by decide)

theorem all2_forall {α β : Type} {R : α → β → Prop} {P : α → Prop} {Q : β → Prop} {xs : List α} {ys : List β} (h : All2 R xs ys)
    (hpq : ∀ x ∈ xs, ∀ y, R x y → (Q y ↔ P x)) : (∀ y ∈ ys, Q y) ↔ ∀ x ∈ xs, P x := by
  induction h with
  | nil => simp
  | cons h1 _ ih =>
    rw [List.forall_mem_cons, List.forall_mem_cons, hpq _ (by simp) _ h1, ih fun x hx => hpq x (by simp [hx])]

/-- **C102** for ODIN: what is imported from blocks that can be written and read (`Writable`, C76) is a
document the schema allows just if every block has an identifier the schema allows and its lines have
no data called `alignment` or `segmentation` other than an expression. -/
theorem C102_odin (title : Str → Str) (o : Odin.Opts) (hn : ∀ s ∈ Odin.names, XmlLex.ncName s = true) {r : Char} (hr : Odin.Legal r)
    (hr' : r ≠ '\r') (ho : o.repl = [r]) (bs : List Odin.Block)
    (hb : ∀ b ∈ bs, ∃ doc first last types, Odin.Writable title o b doc first last types)
    (hd : (bs.filterMap fun b => b.igtId).Nodup) (ind : Option Int) :
    ∃ xs s doc, Odin.odinIgts title o bs = .ok xs ∧ dumpsXml ind (Odin.corpus xs) = .ok s ∧ docText s = .ok doc ∧
      (Valid structure_rnc doc ↔ ∀ b ∈ bs, BlockFits b) := by
  obtain ⟨xs, h1, f1, f2, f3, -⟩ := Odin.corpus_fine title o hn hr hr' ho bs hb hd
  obtain ⟨s, doc, g1, g2, g3⟩ := C98_iff (Odin.corpus xs) rfl f1 f2 f3 ind
  refine ⟨xs, s, doc, h1, g1, g2, g3.trans ?_⟩
  have hall := (Odin.C75_all title o bs xs).1 h1
  rw [← all2_forall hall (fun b hb' x hx => by
    obtain ⟨doc, first, last, types, hw⟩ := hb b hb'
    exact igt_fits hw hx)]
  exact ⟨fun h => h.2.2.2, fun h => ⟨by rintro i ⟨⟩, rfl, by simp [Odin.corpus], h⟩⟩

end

/-! ### Toolbox -/

section
variable [Uni] [XmlLex] [Xsd] [Tbx.Lex]

/-- options whose tier identifiers the schema allows, all of whose tiers have types, and whose
attributes are not those that refer -/
structure OptsFit (o : Tbx.Opts) : Prop where
  tiers : ∀ mkr tid, Dict.get? o.tierMap mkr = some tid → IdFits tid
  phrase : ∀ wid pid, o.phrase = some (wid, pid) → IdFits pid
  types : ∀ tid ty, Dict.get? o.tierTypes tid = some ty → ty.isSome = true
  attrs : ∀ mkr a, Dict.get? o.attMap mkr = some a → a ≠ ALN ∧ a ≠ CNT ∧ a ≠ SEG

theorem algn_id {i : Str} (h : IdFits i) : AlgnFits i := by
  refine algn_iff.2 ⟨⟨⟨i, none⟩, []⟩, by simp [Expr.render, Sel.render, Sel.rangeStr], ⟨by rintro r ⟨⟩, by simp⟩, fun s hs => ?_⟩
  simp only [Expr.sels, List.map_nil, List.mem_singleton] at hs
  subst hs
  exact ⟨h, by rintro r ⟨⟩⟩

theorem algn_span {i : Str} (h : IdFits i) (a b : Nat) : AlgnFits (spanStr i (natStr a) (natStr b)) := by
  refine algn_iff.2 ⟨⟨⟨i, some ⟨⟨natNum a, natNum b⟩, []⟩⟩, []⟩, ?_, ⟨?_, by simp⟩, fun s hs => ?_⟩
  · simp [Expr.render, Sel.render, Sel.rangeStr, RangeE.render, SpanE.render, natNum_render, spanStr]
  · rintro r ⟨⟩
    exact ⟨⟨rfl, rfl⟩, by simp⟩
  · simp only [Expr.sels, List.map_nil, List.mem_singleton] at hs
    subst hs
    refine ⟨h, ?_⟩
    rintro r ⟨⟩
    exact ⟨⟨natNum_ok a, natNum_ok b⟩, by simp⟩

theorem algn_span_int {i : Str} (h : IdFits i) {a b : Int} (ha : 0 ≤ a) (hb : 0 ≤ b) : AlgnFits (spanStr i (intStr a) (intStr b)) := by
  obtain ⟨n, rfl⟩ := Int.eq_ofNat_of_zero_le ha
  obtain ⟨m, rfl⟩ := Int.eq_ofNat_of_zero_le hb
  exact algn_span h n m

/-- spans are not negative -/
theorem spanOf_nonneg {ty tgt : Option Str} {s : Nat} {toks : List Str} {t : Str} {a b c : Int}
    (h : Tbx.spanOf ty tgt s toks t = .ok (some (a, b, c))) : 0 ≤ a ∧ 0 ≤ b := by
  unfold Tbx.spanOf at h
  split at h
  · unfold Tbx.alignWord at h
    split at h
    · cases h
    · split at h
      · simp only [Tbx.alignWords, Except.map, Except.ok.injEq, Option.some.injEq, Prod.mk.injEq] at h
        obtain ⟨rfl, rfl, -⟩ := h
        omega
      · split at h
        · next w _ _ =>
          simp only [Except.map, Except.ok.injEq, Option.some.injEq] at h
          have := Tbx.C56_partial s _ toks t a b c h
          exact ⟨this.1, this.2.2.1⟩
        · simp only [Except.map, Except.ok.injEq, Option.some.injEq, Prod.mk.injEq] at h
          obtain ⟨rfl, rfl, -⟩ := h
          omega
  · cases h

theorem refOf_fits {ty : Option Str} {item : Option Obj} {tgt : Option Str} {s : Nat} {toks : List Str} {t r : Str}
    (hi : ∀ x, item = some x → HasId x.data) (h : Tbx.refOf ty item tgt s toks t = .ok r) : AlgnFits r := by
  unfold Tbx.refOf at h
  split at h
  · cases h
  · cases h
  · next span it hs =>
    cases h
    obtain ⟨i, hi, hf⟩ := hi it rfl
    rw [hi]
    unfold Tbx.fmtRef
    split
    · next a b c _ =>
      obtain ⟨h1, h2⟩ := spanOf_nonneg hs
      split
      · exact algn_span_int hf h1 h2
      · exact algn_id hf
    · exact algn_id hf

theorem refs_one {k v : Str} (h : AlgnFits v) : RefsFit [(k, v)] := by
  by_cases hs : k = SEG
  · subst hs
    refine .inr ⟨fun w hw => ?_, fun w hw => ?_, fun w hw => ?_⟩
    · cases List.mem_singleton.1 hw; exact h
    · have := List.mem_singleton.1 hw; injection this with e; exact absurd e (by decide)
    · have := List.mem_singleton.1 hw; injection this with e; exact absurd e (by decide)
  · refine .inl ⟨fun w hw => ?_, fun w hw => ?_, fun w hw => ?_⟩
    · have := List.mem_singleton.1 hw; injection this with _ e; exact e ▸ h
    · have := List.mem_singleton.1 hw; injection this with _ e; exact e ▸ h
    · have := List.mem_singleton.1 hw; injection this with e; exact hs e.symm

theorem refs_nil : RefsFit [] := .inl ⟨fun w hw => (by cases hw), fun w hw => (by cases hw), fun w hw => (by cases hw)⟩

theorem item_fits {tid : Str} {i : Nat} {t : Str} {a : Dict Str Str} {x : Obj} (h : Tbx.mkItem tid i t a = .ok x) (hid : IdFits tid)
    (ha : RefsFit a) : ItemFits x := by
  rw [Tbx.mkItem_inv h]
  exact ⟨⟨_, rfl, hid.num i⟩, ha⟩

theorem refItems_fits {ty : Option Str} {tid ra : Str} {item : Option Obj} {tgt : Option Str} {toks : List Str} (hid : IdFits tid)
    (hi : ∀ x, item = some x → HasId x.data) : ∀ (ts : List Str) (s i : Nat) (xs : List Obj),
    Tbx.refItems ty tid ra item tgt toks ts s i = .ok xs → ∀ x ∈ xs, ItemFits x := by
  intro ts
  induction ts with
  | nil => intro s i xs h; cases h; simp
  | cons t ts ih =>
    intro s i xs h
    simp only [Tbx.refItems, bind, Except.bind] at h
    split at h
    · cases h
    next r hr =>
    split at h
    · cases h
    next x hx =>
    split at h
    · cases h
    next ys hys =>
    cases h
    intro y hy
    rcases List.mem_cons.1 hy with rfl | hy
    · exact item_fits hx hid (refs_one (refOf_fits hi hr))
    · exact ih _ _ _ hys y hy

theorem alnItems_fits {ty : Option Str} {tid ra : Str} (hid : IdFits tid) :
    ∀ (ps : List (Option Obj × Option Tbx.Aln)) (i : Nat) (xs : List Obj), (∀ p ∈ ps, ∀ x, p.1 = some x → HasId x.data) →
    Tbx.alnItems ty tid ra ps i = .ok xs → ∀ x ∈ xs, ItemFits x := by
  intro ps
  induction ps with
  | nil => intro i xs _ h; cases h; simp
  | cons p ps ih =>
    intro i xs hp h
    obtain ⟨item, al⟩ := p
    match al with
    | none => cases h
    | some (_, none) => cases h
    | some (tgt, some toks) =>
      simp only [Tbx.alnItems, bind, Except.bind] at h
      split at h
      · cases h
      next ys hys =>
      split at h
      · cases h
      next zs hzs =>
      cases h
      intro y hy
      rcases List.mem_append.1 hy with hy | hy
      · exact refItems_fits hid (hp (item, some (tgt, some toks)) (by simp)) _ _ _ _ hys y hy
      · exact ih _ _ (fun p h => hp p (by simp [h])) hzs y hy

theorem plainToks_fits {tid : Str} (hid : IdFits tid) : ∀ (ts : List Str) (i : Nat) (xs : List Obj),
    Tbx.plainToks tid ts i = .ok xs → ∀ x ∈ xs, ItemFits x := by
  intro ts
  induction ts with
  | nil => intro i xs h; cases h; simp
  | cons t ts ih =>
    intro i xs h
    simp only [Tbx.plainToks, bind, Except.bind] at h
    split at h
    · cases h
    next x hx =>
    split at h
    · cases h
    next ys hys =>
    cases h
    intro y hy
    rcases List.mem_cons.1 hy with rfl | hy
    · exact item_fits hx hid refs_nil
    · exact ih _ _ hys y hy

theorem plainItems_fits {tid : Str} (hid : IdFits tid) : ∀ (as : List Tbx.Aln) (i : Nat) (xs : List Obj),
    Tbx.plainItems tid as i = .ok xs → ∀ x ∈ xs, ItemFits x := by
  intro as
  induction as with
  | nil => intro i xs h; cases h; simp
  | cons a as ih =>
    intro i xs h
    obtain ⟨u, al⟩ := a
    match al with
    | none => cases h
    | some toks =>
      simp only [Tbx.plainItems, bind, Except.bind] at h
      split at h
      · cases h
      next ys hys =>
      split at h
      · cases h
      next zs hzs =>
      cases h
      intro y hy
      rcases List.mem_append.1 hy with hy | hy
      · exact plainToks_fits hid _ _ _ hys y hy
      · exact ih _ _ hzs y hy

theorem tier_fits {ty : Option Str} {tid : Str} {a : Dict Str Str} {xs : List Obj} {t : Obj} (h : Tbx.mkTier ty tid a xs = .ok t)
    (hid : IdFits tid) (hty : ty.isSome = true) (ha : RefsFit a) (hx : ∀ x ∈ xs, ItemFits x) : TierFits t := by
  obtain ⟨rfl, -⟩ := Tbx.mkTier_inv h
  exact ⟨⟨_, rfl, hid⟩, hty, ha, by simp, hx⟩

theorem makeTier_fits {ty : Option Str} {tid : Str} {ra : Option Str} {aln : List Tbx.Aln} {algn : Option Obj} {t : Obj}
    (hid : IdFits tid) (hty : ty.isSome = true) (hal : ∀ u, algn = some u → TierFits u) (h : Tbx.makeTier ty tid ra aln algn = .ok t) :
    TierFits t := by
  unfold Tbx.makeTier at h
  split at h
  · exact tier_fits h hid hty refs_nil (by simp)
  · split at h
    · next r u =>
      simp only [bind, Except.bind] at h
      split at h
      · cases h
      next xs hxs =>
      obtain ⟨⟨i, hi, hf⟩, _, _, _, hk⟩ := hal u rfl
      refine tier_fits h hid hty (refs_one (by rw [hi]; exact algn_id hf)) (alnItems_fits hid _ _ _ ?_ hxs)
      intro p hp x hx
      exact (hk x ((Tbx.zipLongest_parts _ _ p hp).1 x hx)).1
    · simp only [bind, Except.bind] at h
      split at h
      · cases h
      next xs hxs =>
      exact tier_fits h hid hty refs_nil (plainItems_fits hid _ _ _ hxs)

theorem phraseTier_fits {pid : Str} {aln : List Tbx.Aln} {p : Obj} (hid : IdFits pid) (h : Tbx.makePhraseTier pid aln = .ok p) : TierFits p := by
  obtain ⟨rfl, -⟩ := Tbx.makePhraseTier_inv h
  refine ⟨⟨_, rfl, hid⟩, rfl, refs_nil, by simp, ?_⟩
  intro x hx
  cases List.mem_singleton.1 hx
  exact ⟨⟨_, rfl, hid.num 1⟩, refs_nil⟩

theorem makeAllTiers_fits {o : Tbx.Opts} (ho : OptsFit o) : ∀ (fs : List (Py Tbx.Field)) (prev : Dict Str Obj) (done r : List Obj),
    (∀ t ∈ done, TierFits t) → (∀ a t, Dict.get? prev a = some t → TierFits t) → Tbx.makeAllTiers o fs prev done = .ok r → ∀ t ∈ r, TierFits t := by
  intro fs
  induction fs with
  | nil => intro prev done r hd _ h; cases h; exact hd
  | cons f fs ih =>
    intro prev done r hd hp h
    cases f with
    | error e => cases h
    | ok f =>
      obtain ⟨mkr, aln⟩ := f
      cases hm : Dict.get? o.tierMap mkr with
      | none =>
        simp only [Tbx.makeAllTiers, hm] at h
        exact ih _ _ _ hd hp h
      | some tid =>
        obtain ⟨prev', done', ty, t, hps, hty, ht, hne, hr⟩ := Tbx.makeAllTiers_step hm h
        have hsnoc : ∀ {ts : List Obj} {u : Obj}, (∀ t ∈ ts, TierFits t) → TierFits u → ∀ t ∈ ts ++ [u], TierFits t := by
          intro ts u h1 h2 t ht
          rcases List.mem_append.1 ht with h | h
          · exact h1 t h
          · cases List.mem_singleton.1 h; exact h2
        have hstep : (∀ t ∈ done', TierFits t) ∧ ∀ a t, Dict.get? prev' a = some t → TierFits t := by
          rcases Tbx.phraseStep_inv hps with ⟨_, rfl, rfl⟩ | ⟨pid, p, hph, hpt, rfl, rfl, hid⟩
          · exact ⟨hd, hp⟩
          · have hg := phraseTier_fits (ho.phrase _ _ hph) hpt
            refine ⟨hsnoc hd hg, ?_⟩
            intro a u hu
            rw [Dict.get?_set] at hu
            split at hu
            · cases hu; exact hg
            · exact hp a u hu
        have hg : TierFits t := by
          refine makeTier_fits (ho.tiers _ _ hm) (ho.types _ _ hty) ?_ ht
          intro u hu
          obtain ⟨a, _, ha⟩ := Option.bind_eq_some_iff.1 hu
          exact hstep.2 a u ha
        refine ih _ _ _ (hsnoc hstep.1 hg) ?_ hr
        intro a u hu
        rw [Dict.get?_set] at hu
        split at hu
        · cases hu; exact hg
        · exact hstep.2 a u hu

theorem tbx_igt_fits {o : Tbx.Opts} (ho : OptsFit o) {r : Tbx.Record} {key : Str} {x : Obj}
    (h : Tbx.makeIgt o key r.data r.context r.fields = .ok (some x)) : IgtFits x ↔ HasId x.data := by
  obtain ⟨i, ts, hi, hacc, hts, rfl⟩ := Tbx.makeIgt_inv h
  have hg := makeAllTiers_fits ho _ _ _ _ (by simp) (by intro a t h; cases h) hts
  obtain ⟨hw, ha⟩ := Tbx.igtAttrs_spec o (r.data ++ r.context)
  refine ⟨fun h => h.1, fun h => ⟨h, ?_, by simp, hg⟩⟩
  have hno : ∀ a v, (a, v) ∈ Tbx.igtAttrs o (r.data ++ r.context) → a ≠ ALN ∧ a ≠ CNT ∧ a ≠ SEG := by
    intro a v hav
    obtain ⟨pre, m, post, e, hm, _⟩ := (ha a v).1 (Dict.get?_of_mem hw hav)
    exact ho.attrs m a hm
  exact ⟨fun v hv => (hno _ v hv).1 rfl, fun v hv => (hno _ v hv).2.1 rfl, fun v hv => (hno _ v hv).2.2 rfl⟩

theorem tbx_igts_fit {o : Tbx.Opts} (ho : OptsFit o) {k : Str} : ∀ (rs : List Tbx.Record) (xs : List Obj),
    Tbx.toolboxIgts o k rs = .ok xs → ∀ x ∈ xs, (IgtFits x ↔ HasId x.data) := by
  intro rs
  induction rs with
  | nil => intro xs h; cases h; simp
  | cons r rs ih =>
    intro xs h
    rw [Tbx.toolboxIgts] at h
    split at h
    · next key hk =>
      simp only [bind, Except.bind] at h
      split at h
      · cases h
      next x hx =>
      split at h
      · cases h
      next ys hys =>
      cases h
      intro y hy
      rcases List.mem_append.1 hy with hy | hy
      · cases x with
        | none => cases hy
        | some x =>
          cases List.mem_singleton.1 hy
          exact tbx_igt_fits ho hx
      · exact ih _ hys y hy
    · exact ih _ h

/-- **C102** for Toolbox: what is imported with suitable options from records that can be written and read
(C93) is a document the schema allows just if the identifiers made from the keys of the records are
identifiers of the schema. -/
theorem C102_toolbox (o : Tbx.Opts) (k : Str) (ho : Tbx.OptsOK o) (hf : OptsFit o) (rs : List Tbx.Record)
    (hr : ∀ r ∈ rs, Tbx.RecordOK o k r) (xs : List Obj) (h : Tbx.toolboxIgts o k rs = .ok xs)
    (hd : (xs.map fun x => x.data.id).Nodup) (ind : Option Int) :
    ∃ s doc, dumpsXml ind (Tbx.corpus xs) = .ok s ∧ docText s = .ok doc ∧
      (Valid structure_rnc doc ↔ ∀ x ∈ xs, ∃ i, x.data.id = some i ∧ IdFits i) := by
  obtain ⟨f1, f2, f3, -⟩ := Tbx.corpus_fine o k ho rs hr xs h hd
  obtain ⟨s, doc, g1, g2, g3⟩ := C98_iff (Tbx.corpus xs) rfl f1 f2 f3 ind
  refine ⟨s, doc, g1, g2, g3.trans ?_⟩
  have hi := tbx_igts_fit hf rs xs h
  constructor
  · intro hc x hx
    exact (hc.2.2.2 x hx).1
  · intro hc
    exact ⟨by rintro i ⟨⟩, rfl, by simp [Tbx.corpus], fun x hx => (hi x hx).2 (hc x hx)⟩

end

/-! ### Examples -/

section
attribute [local instance] asciiUni asciiXml asciiXsd Tbx.asciiLex

theorem exBlock_fits : BlockFits Odin.exBlock := by
  refine ⟨⟨_, rfl, 'i', lit! "gt1", rfl, by decide, by decide +kernel⟩, ?_⟩
  have hl : ∀ l ∈ Odin.exBlock.lines.getD [], ∀ p ∈ l, p.1 ≠ ALN ∧ p.1 ≠ SEG := by decide +kernel
  intro l h
  exact ⟨fun v hv => absurd rfl (hl l h _ hv).1, fun v hv => absurd rfl (hl l h _ hv).2, .inl fun v hv => absurd rfl (hl l h _ hv).1⟩

/-- the hypotheses of `C102_odin` are met by a block that fits, so that a valid document is written -/
example (ind : Option Int) : ∃ xs s doc, Odin.odinIgts id {} [Odin.exBlock] = .ok xs ∧ dumpsXml ind (Odin.corpus xs) = .ok s ∧ docText s = .ok doc ∧
    Valid structure_rnc doc := by
  obtain ⟨xs, s, doc, h1, h2, h3, h4⟩ := C102_odin id {} (by decide) (r := '�') ((Odin.legal_iff _).2 (by decide)) (by decide) rfl [Odin.exBlock]
    (fun b hb => by cases List.mem_singleton.1 hb; exact ⟨_, _, _, _, Odin.exBlock_writable⟩) (by decide) ind
  exact ⟨xs, s, doc, h1, h2, h3, h4.2 fun b hb => by cases List.mem_singleton.1 hb; exact exBlock_fits⟩

/-- a block without identifier -/
def anonymous : Odin.Block := { Odin.exBlock with igtId := none }

/-- **C102** refuted: a block without identifier is imported (and read, C76), but what is written is not
valid, with whatever indentation. -/
theorem C102_refuted (ind : Option Int) : ∃ xs s doc, Odin.odinIgts id {} [anonymous] = .ok xs ∧ dumpsXml ind (Odin.corpus xs) = .ok s ∧
    docText s = .ok doc ∧ ¬ Valid structure_rnc doc := by
  have h := Odin.exBlock_writable
  have hw : Odin.Writable id {} anonymous (lit! "397") (lit! "959") (lit! "961") (lit! "L G T") :=
    ⟨⟨rfl, rfl, h.block.range, h.block.lines, by rintro i ⟨⟩⟩, by rintro i ⟨⟩, h.doc, h.first, h.last, h.types, (by intro e; cases e), h.iso, h.language, h.lines⟩
  obtain ⟨xs, s, doc, h1, h2, h3, h4⟩ := C102_odin id {} (by decide) (r := '�') ((Odin.legal_iff _).2 (by decide)) (by decide) rfl [anonymous]
    (fun b hb => by cases List.mem_singleton.1 hb; exact ⟨_, _, _, _, hw⟩) (by decide) ind
  refine ⟨xs, s, doc, h1, h2, h3, fun hv => ?_⟩
  obtain ⟨⟨i, hi, _⟩, _⟩ := h4.1 hv anonymous (by simp)
  cases hi

theorem defaults_fit : OptsFit Tbx.defaults := by
  refine ⟨fun mkr tid h => ?_, ?_, fun tid ty h => ?_, fun mkr a h => ?_⟩
  · have := Dict.get?_mem h
    simp only [Tbx.defaults, List.mem_cons, List.not_mem_nil, or_false, Prod.mk.injEq] at this
    rcases this with ⟨_, rfl⟩ | ⟨_, rfl⟩ | ⟨_, rfl⟩ | ⟨_, rfl⟩ | ⟨_, rfl⟩ <;> exact fits_lit (by decide) (by decide)
  · rintro w p ⟨⟩; exact fits_lit (by decide) (by decide)
  · have := Dict.get?_mem h
    simp only [Tbx.defaults, List.mem_cons, List.not_mem_nil, or_false, Prod.mk.injEq] at this
    rcases this with ⟨_, rfl⟩ | ⟨_, rfl⟩ | ⟨_, rfl⟩ | ⟨_, rfl⟩ | ⟨_, rfl⟩ | ⟨_, rfl⟩ <;> rfl
  · have := Dict.get?_mem h
    simp only [Tbx.defaults, List.mem_cons, List.not_mem_nil, or_false, Prod.mk.injEq] at this
    obtain ⟨_, rfl⟩ := this
    decide

/-- the hypotheses of `C102_toolbox` are met by the default options and a record with the key `7` -/
example (ind : Option Int) : ∃ xs s doc, Tbx.toolboxIgts Tbx.defaults (lit! "\\ref") [Tbx.oneWord (lit! "7") (lit! "inu")] = .ok xs ∧ xs.length = 1 ∧
    dumpsXml ind (Tbx.corpus xs) = .ok s ∧ docText s = .ok doc ∧ Valid structure_rnc doc := by
  obtain ⟨s, doc, h1, h2, h3⟩ := C102_toolbox Tbx.defaults (lit! "\\ref") Tbx.defaults_ok defaults_fit [Tbx.oneWord (lit! "7") (lit! "inu")]
    (by intro r hr; cases List.mem_singleton.1 hr; exact Tbx.oneWord_ok) _ rfl (by decide +kernel) ind
  refine ⟨_, s, doc, rfl, rfl, h1, h2, h3.2 fun x hx => ?_⟩
  cases List.mem_singleton.1 hx
  exact ⟨_, rfl, 'i', lit! "gt7", rfl, by decide, by decide +kernel⟩

/-- a record whose key has a space -/
def spaced : Tbx.Record := Tbx.oneWord (lit! "text 7") (lit! "inu")

theorem spaced_ok : Tbx.RecordOK Tbx.defaults (lit! "\\ref") spaced := by
  refine ⟨?_, ?_, Tbx.oneWord_ok.fields⟩
  · rintro key ⟨⟩; exact chars_of (by decide)
  · intro m v h
    simp only [spaced, Tbx.oneWord, List.nil_append, List.mem_singleton, Prod.mk.injEq, Option.some.injEq] at h
    rw [h.2]; exact chars_of (by decide)

/-- **C102** refuted: the key of a Toolbox record with a space becomes an identifier (`igt_id` checks only
the first character), and what is written is not valid, with whatever indentation. -/
theorem C102_refuted_key (ind : Option Int) : ∃ xs s doc, Tbx.toolboxIgts Tbx.defaults (lit! "\\ref") [spaced] = .ok xs ∧ xs.length = 1 ∧
    dumpsXml ind (Tbx.corpus xs) = .ok s ∧ docText s = .ok doc ∧ ¬ Valid structure_rnc doc := by
  obtain ⟨s, doc, h1, h2, h3⟩ := C102_toolbox Tbx.defaults (lit! "\\ref") Tbx.defaults_ok defaults_fit [spaced]
    (by intro r hr; cases List.mem_singleton.1 hr; exact spaced_ok) _ rfl (by decide +kernel) ind
  refine ⟨_, s, doc, rfl, rfl, h1, h2, fun hv => ?_⟩
  obtain ⟨i, hi, c, r, rfl, _, hr⟩ := h3.1 hv _ (List.mem_singleton.2 rfl)
  injection hi with hi
  injection hi with _ hi
  have := hr ' ' (by rw [← hi]; decide)
  exact absurd this (by decide +kernel)

end
end Xigt.Rng
