import Verif.Import.ToolboxSpans
import Verif.Import.NumLemmas
import Verif.Igt.ValueLemmas
import Verif.Ref.Props
/-
C55, C72-C74: what the Toolbox importer makes of the fields of a record.
-/
set_option linter.unusedSectionVars false

namespace Xigt.Tbx

/-! ### What imported tiers are -/

/-- all tokens of a field, in order -/
def tokens (aln : List Aln) : List Str := aln.flatMap fun a => a.2.getD []

/-- the tier `t` holds the tokens in order, numbered from 1 -/
structure Holds (tid : Str) (toks : List Str) (t : Obj) : Prop where
  cls : t.cls = .tier
  id : t.data.id = some tid
  texts : t.kids.map (fun x => x.data.text) = toks.map some
  ids : t.kids.map (fun x => x.data.id) =
    (List.range toks.length).map fun k => some (tid ++ natStr (k + 1))

/-- what the tiers of an igt are, given the fields of the record: a tier for every field of which
the marker is mapped, holding its tokens, preceded by a phrase tier where the options say so -/
inductive Imported (o : Opts) : List (Py Field) → List Obj → Prop
  | nil : Imported o [] []
  | skip {mkr aln fs ts} : Dict.get? o.tierMap mkr = none → Imported o fs ts →
      Imported o (.ok (mkr, aln) :: fs) ts
  | phrase {mkr aln fs tid pid p t ts} : Dict.get? o.tierMap mkr = some tid →
      o.phrase = some (tid, pid) → Holds pid [join [' '] (tokens aln)] p → p.data.type = some (lit! "phrases") → Holds tid (tokens aln) t →
      Dict.get? o.tierTypes tid = some t.data.type → Imported o fs ts →
      Imported o (.ok (mkr, aln) :: fs) (p :: t :: ts)
  | tier {mkr aln fs tid t ts} : Dict.get? o.tierMap mkr = some tid →
      (∀ pid, o.phrase ≠ some (tid, pid)) → Holds tid (tokens aln) t →
      Dict.get? o.tierTypes tid = some t.data.type → Imported o fs ts →
      Imported o (.ok (mkr, aln) :: fs) (t :: ts)

section
variable [Uni] [Lex]

/-! ### Constructing -/

theorem construct_inv {d : Data} {md kids : List Obj} {x : Obj} (h : construct d md kids = .ok x) :
    x = .mk d md kids ∧ (∀ i, d.id = some i → idAccepted i = true) := by
  unfold construct at h
  split at h
  · cases h
  · rename_i h1
    split at h
    · cases h
    · split at h
      · cases h
      · cases h
        refine ⟨rfl, fun i hi => ?_⟩
        rw [hi] at h1
        simpa using h1

theorem mkItem_inv {tid : Str} {i : Nat} {t : Str} {a : Dict Str Str} {x : Obj}
    (h : mkItem tid i t a = .ok x) :
    x = .mk { cls := .item, id := some (tid ++ natStr i), attrs := a, text := some t } [] [] :=
  (construct_inv h).1

theorem mkTier_inv {ty : Option Str} {tid : Str} {a : Dict Str Str} {xs : List Obj} {t : Obj}
    (h : mkTier ty tid a xs = .ok t) :
    t = .mk { cls := .tier, id := some tid, type := ty, attrs := a } [] xs ∧ idAccepted tid = true :=
  ⟨(construct_inv h).1, (construct_inv h).2 tid rfl⟩

/-- texts and IDs of a list of items made for tokens, numbered from `i` -/
def Items (tid : Str) (i : Nat) (toks : List Str) (xs : List Obj) : Prop :=
  xs.map (fun x => x.data.text) = toks.map some ∧
  xs.map (fun x => x.data.id) = (List.range' i toks.length).map fun k => some (tid ++ natStr k)

theorem Items.append {tid : Str} {i : Nat} {a b : List Str} {xs ys : List Obj}
    (h : Items tid i a xs) (g : Items tid (i + a.length) b ys) : Items tid i (a ++ b) (xs ++ ys) := by
  refine ⟨by simp [h.1, g.1], ?_⟩
  rw [List.map_append, h.2, g.2, List.length_append, ← List.range'_append_1, List.map_append]

theorem refItems_inv {ty : Option Str} {tid ra : Str} {item : Option Obj} {tgt : Option Str}
    {toks : List Str} : ∀ (ts : List Str) (s i : Nat) (xs : List Obj),
    refItems ty tid ra item tgt toks ts s i = .ok xs → Items tid i ts xs ∧
    ∀ x ∈ xs, ∃ pre t post r j, ts = pre ++ t :: post ∧
      refOf ty item tgt (s + pre.length) toks t = .ok r ∧
      x = .mk { cls := .item, id := some j, attrs := [(ra, r)], text := some t } [] [] := by
  intro ts
  induction ts with
  | nil =>
    intro s i xs h
    cases h
    exact ⟨⟨rfl, rfl⟩, by simp⟩
  | cons t ts ih =>
    intro s i xs h
    simp only [refItems, bind, Except.bind] at h
    split at h
    · cases h
    rename_i r hr
    split at h
    · cases h
    rename_i x hx
    split at h
    · cases h
    rename_i ys hys
    cases h
    obtain ⟨h1, h2⟩ := ih _ _ _ hys
    have hx' := mkItem_inv hx
    refine ⟨⟨?_, ?_⟩, ?_⟩
    · rw [List.map_cons, List.map_cons, h1.1, hx']; rfl
    · rw [List.map_cons, h1.2, hx', List.length_cons, List.range'_succ, List.map_cons]; rfl
    · intro z hz
      rcases List.mem_cons.1 hz with rfl | hz
      · exact ⟨[], t, ts, r, _, rfl, hr, hx'⟩
      · obtain ⟨pre, t', post, r', j, e, hr', hz'⟩ := h2 z hz
        exact ⟨t :: pre, t', post, r', j, by rw [e]; rfl, by
          rw [List.length_cons, ← hr']; congr 1; omega, hz'⟩

theorem alnItems_inv {ty : Option Str} {tid ra : Str} : ∀ (ps : List (Option Obj × Option Aln)) (i : Nat)
    (xs : List Obj), alnItems ty tid ra ps i = .ok xs →
    Items tid i (ps.flatMap fun p => (p.2.bind (·.2)).getD []) xs ∧
    (∀ p ∈ ps, ∃ tgt toks, p.2 = some (tgt, some toks)) ∧
    ∀ x ∈ xs, ∃ item tgt toks pre t post r j, (item, some (tgt, some toks)) ∈ ps ∧
      toks = pre ++ t :: post ∧ refOf ty item tgt pre.length toks t = .ok r ∧
      x = .mk { cls := .item, id := some j, attrs := [(ra, r)], text := some t } [] [] := by
  intro ps
  induction ps with
  | nil =>
    intro i xs h
    cases h
    exact ⟨⟨rfl, rfl⟩, by simp, by simp⟩
  | cons p ps ih =>
    intro i xs h
    obtain ⟨item, a⟩ := p
    cases a with
    | none => cases h
    | some a =>
      obtain ⟨tgt, toks⟩ := a
      cases toks with
      | none => cases h
      | some toks =>
        simp only [alnItems, bind, Except.bind] at h
        split at h
        · cases h
        rename_i ys hys
        split at h
        · cases h
        rename_i zs hzs
        cases h
        obtain ⟨a1, a2⟩ := refItems_inv _ _ _ _ hys
        obtain ⟨b1, b2, b3⟩ := ih _ _ hzs
        refine ⟨?_, ?_, ?_⟩
        · rw [List.flatMap_cons]
          exact a1.append b1
        · intro q hq
          rcases List.mem_cons.1 hq with rfl | hq
          · exact ⟨tgt, toks, rfl⟩
          · exact b2 q hq
        · intro x hx
          rcases List.mem_append.1 hx with hx | hx
          · obtain ⟨pre, t, post, r, j, e, hr, hx⟩ := a2 x hx
            exact ⟨item, tgt, toks, pre, t, post, r, j, by simp, e, by simpa using hr, hx⟩
          · obtain ⟨item', tgt', toks', pre, t, post, r, j, hm, e, hr, hx⟩ := b3 x hx
            exact ⟨item', tgt', toks', pre, t, post, r, j, List.mem_cons_of_mem _ hm, e, hr, hx⟩

theorem plainToks_inv {tid : Str} : ∀ (ts : List Str) (i : Nat) (xs : List Obj),
    plainToks tid ts i = .ok xs → Items tid i ts xs := by
  intro ts
  induction ts with
  | nil => intro i xs h; cases h; exact ⟨rfl, rfl⟩
  | cons t ts ih =>
    intro i xs h
    simp only [plainToks, bind, Except.bind] at h
    split at h
    · cases h
    rename_i x hx
    split at h
    · cases h
    rename_i ys hys
    cases h
    have h1 := ih _ _ hys
    have hx' := mkItem_inv hx
    refine ⟨?_, ?_⟩
    · rw [List.map_cons, List.map_cons, h1.1, hx']; rfl
    · rw [List.map_cons, h1.2, hx', List.length_cons, List.range'_succ, List.map_cons]; rfl

theorem plainItems_inv {tid : Str} : ∀ (as : List Aln) (i : Nat) (xs : List Obj),
    plainItems tid as i = .ok xs → Items tid i (tokens as) xs := by
  intro as
  induction as with
  | nil => intro i xs h; cases h; exact ⟨rfl, rfl⟩
  | cons a as ih =>
    intro i xs h
    obtain ⟨tgt, toks⟩ := a
    cases toks with
    | none => cases h
    | some toks =>
      simp only [plainItems, bind, Except.bind] at h
      split at h
      · cases h
      rename_i ys hys
      split at h
      · cases h
      rename_i zs hzs
      cases h
      rw [tokens, List.flatMap_cons]
      exact (plainToks_inv _ _ _ hys).append (ih _ _ hzs)

/-! ### Pairing the items of the aligned tier with the alignments -/

theorem zipLongest_toks (xs : List Obj) (aln : List Aln) :
    (zipLongest xs aln).flatMap (fun p => (p.2.bind (·.2)).getD []) = tokens aln := by
  induction xs generalizing aln with
  | nil =>
    rw [zipLongest, tokens, List.flatMap_map]; rfl
  | cons x xs ih =>
    cases aln with
    | nil =>
      simp only [zipLongest, tokens, List.flatMap_nil, List.flatMap_eq_nil_iff, List.mem_map]
      rintro p ⟨y, _, rfl⟩; rfl
    | cons a aln => rw [zipLongest, List.flatMap_cons, ih, tokens, tokens, List.flatMap_cons]; rfl

theorem zipLongest_mem {xs : List Obj} {aln : List Aln} {y : Obj} {a : Aln}
    (h : (some y, some a) ∈ zipLongest xs aln) : ∃ j : Nat, xs[j]? = some y ∧ aln[j]? = some a := by
  induction xs generalizing aln with
  | nil =>
    rw [zipLongest, List.mem_map] at h
    obtain ⟨_, _, h⟩ := h
    cases h
  | cons x xs ih =>
    cases aln with
    | nil =>
      simp only [zipLongest, List.mem_map] at h
      obtain ⟨_, _, h⟩ := h
      cases h
    | cons b aln =>
      rw [zipLongest] at h
      rcases List.mem_cons.1 h with h | h
      · cases h; exact ⟨0, rfl, rfl⟩
      · obtain ⟨j, h1, h2⟩ := ih h
        exact ⟨j + 1, by simpa using h1, by simpa using h2⟩

/-! ### C72: tokens are kept -/

theorem holds_of_items {ty : Option Str} {tid : Str} {a : Dict Str Str} {toks : List Str}
    {xs : List Obj} {t : Obj} (h : Items tid 1 toks xs) (ht : mkTier ty tid a xs = .ok t) :
    Holds tid toks t ∧ t.data.type = ty := by
  obtain ⟨rfl, _⟩ := mkTier_inv ht
  refine ⟨⟨rfl, rfl, h.1, ?_⟩, rfl⟩
  simp only [Obj.kids_mk]
  rw [h.2, List.range'_eq_map_range, List.map_map]
  apply List.map_congr_left
  intro k _
  simp [Nat.add_comm]

theorem makeTier_holds {ty : Option Str} {tid : Str} {ra : Option Str} {aln : List Aln}
    {algn : Option Obj} {t : Obj} (h : makeTier ty tid ra aln algn = .ok t) :
    Holds tid (tokens aln) t ∧ t.data.type = ty := by
  unfold makeTier at h
  split at h
  · rename_i he
    rw [he]
    exact holds_of_items (toks := tokens [(none, none)]) ⟨rfl, rfl⟩ h
  · split at h
    · simp only [bind, Except.bind] at h
      split at h
      · cases h
      rename_i xs hxs
      have := (alnItems_inv _ _ _ hxs).1
      rw [zipLongest_toks] at this
      exact holds_of_items this h
    · simp only [bind, Except.bind] at h
      split at h
      · cases h
      rename_i xs hxs
      exact holds_of_items (plainItems_inv _ _ _ hxs) h

theorem makePhraseTier_inv {pid : Str} {aln : List Aln} {p : Obj} (h : makePhraseTier pid aln = .ok p) :
    p = .mk { cls := .tier, id := some pid, type := some (lit! "phrases") } []
      [.mk { cls := .item, id := some (pid ++ natStr 1), text := some (join [' '] (tokens aln)) } [] []] ∧
    idAccepted pid = true := by
  simp only [makePhraseTier, bind, Except.bind] at h
  split at h
  · cases h
  rename_i x hx
  have hx' := mkItem_inv hx
  obtain ⟨rfl, h2⟩ := mkTier_inv h
  exact ⟨by rw [hx']; rfl, h2⟩

theorem makePhraseTier_holds {pid : Str} {aln : List Aln} {p : Obj} (h : makePhraseTier pid aln = .ok p) :
    Holds pid [join [' '] (tokens aln)] p := by
  obtain ⟨rfl, _⟩ := makePhraseTier_inv h
  exact ⟨rfl, rfl, rfl, rfl⟩

theorem makePhraseTier_type {pid : Str} {aln : List Aln} {p : Obj} (h : makePhraseTier pid aln = .ok p) : p.data.type = some (lit! "phrases") := by
  rw [(makePhraseTier_inv h).1]; rfl

theorem yieldTier_inv {done d' : List Obj} {t : Obj} (h : yieldTier done t = .ok d') :
    d' = done ++ [t] ∧ ∀ y ∈ done, y.data.id ≠ t.data.id := by
  unfold yieldTier at h
  split at h
  · cases h
  · rename_i hn
    cases h
    simp only [List.any_eq_true, decide_eq_true_eq, not_exists, not_and] at hn
    exact ⟨rfl, hn⟩

theorem asImportError_ok {α : Type} {r : Py α} {a : α} (h : asImportError r = .ok a) : r = .ok a := by
  unfold asImportError at h
  split at h
  · cases h
  · cases h
  · exact h

theorem phraseStep_inv {o : Opts} {tid : Str} {aln : List Aln} {prev prev' : Dict Str Obj}
    {done done' : List Obj} (h : phraseStep o tid aln prev done = .ok (prev', done')) :
    ((∀ pid, o.phrase ≠ some (tid, pid)) ∧ prev' = prev ∧ done' = done) ∨
    (∃ pid p, o.phrase = some (tid, pid) ∧ makePhraseTier pid aln = .ok p ∧
      prev' = Dict.set prev pid p ∧ done' = done ++ [p] ∧ ∀ y ∈ done, y.data.id ≠ p.data.id) := by
  unfold phraseStep at h
  cases hp : o.phrase with
  | none => rw [hp] at h; cases h; exact Or.inl ⟨by simp, rfl, rfl⟩
  | some wp =>
    obtain ⟨wid, pid⟩ := wp
    rw [hp] at h
    simp only [bind, Except.bind] at h
    split at h
    · rename_i hw
      subst hw
      split at h
      · cases h
      rename_i p hpt
      split at h
      · cases h
      rename_i d1 hd1
      cases h
      obtain ⟨e1, e2⟩ := yieldTier_inv hd1
      exact Or.inr ⟨pid, p, rfl, hpt, rfl, e1, e2⟩
    · rename_i hw
      cases h
      refine Or.inl ⟨?_, rfl, rfl⟩
      intro pid' hh
      cases hh
      exact hw rfl

/-- one mapped field -/
theorem makeAllTiers_step {o : Opts} {mkr : Str} {aln : List Aln} {fs : List (Py Field)}
    {prev : Dict Str Obj} {done r : List Obj} {tid : Str} (hm : Dict.get? o.tierMap mkr = some tid)
    (h : makeAllTiers o (.ok (mkr, aln) :: fs) prev done = .ok r) :
    ∃ prev' done' ty t, phraseStep o tid aln prev done = .ok (prev', done') ∧
      Dict.get? o.tierTypes tid = some ty ∧
      makeTier ty tid (alignmentOf o tid).1 aln ((alignmentOf o tid).2.bind (Dict.get? prev')) = .ok t ∧
      (∀ y ∈ done', y.data.id ≠ t.data.id) ∧
      makeAllTiers o fs (Dict.set prev' tid t) (done' ++ [t]) = .ok r := by
  simp only [makeAllTiers, hm, bind, Except.bind] at h
  split at h
  · cases h
  rename_i pd hpd
  obtain ⟨prev', done'⟩ := pd
  simp only at h
  cases hty : Dict.get? o.tierTypes tid with
  | none => simp [Dict.getItem, hty] at h
  | some ty =>
    simp only [Dict.getItem, hty] at h
    split at h
    · cases h
    rename_i t ht
    split at h
    · cases h
    rename_i d2 hd2
    obtain ⟨e1, e2⟩ := yieldTier_inv hd2
    rw [e1] at h
    exact ⟨prev', done', ty, t, hpd, rfl, asImportError_ok ht, e2, h⟩

theorem makeAllTiers_imported (o : Opts) : ∀ (fs : List (Py Field)) (prev : Dict Str Obj)
    (done r : List Obj), makeAllTiers o fs prev done = .ok r →
    ∃ ts, r = done ++ ts ∧ Imported o fs ts := by
  intro fs
  induction fs with
  | nil =>
    intro prev done r h
    cases h
    exact ⟨[], by simp, .nil⟩
  | cons f fs ih =>
    intro prev done r h
    cases f with
    | error e => cases h
    | ok f =>
      obtain ⟨mkr, aln⟩ := f
      cases hm : Dict.get? o.tierMap mkr with
      | none =>
        simp only [makeAllTiers, hm] at h
        obtain ⟨ts, h1, h2⟩ := ih _ _ _ h
        exact ⟨ts, h1, .skip hm h2⟩
      | some tid =>
        obtain ⟨prev', done', ty, t, hps, hty, ht, _, hr⟩ := makeAllTiers_step hm h
        obtain ⟨ts, h1, h2⟩ := ih _ _ _ hr
        have ht' := makeTier_holds ht
        have hty' : Dict.get? o.tierTypes tid = some t.data.type := by rw [ht'.2, hty]
        rcases phraseStep_inv hps with ⟨hno, _, rfl⟩ | ⟨pid, p, hp, hpt, _, rfl, _⟩
        · exact ⟨t :: ts, by rw [h1]; simp, .tier hm hno ht'.1 hty' h2⟩
        · exact ⟨p :: t :: ts, by rw [h1]; simp, .phrase hm hp (makePhraseTier_holds hpt) (makePhraseTier_type hpt) ht'.1 hty' h2⟩

theorem makeIgt_inv {o : Opts} {key : Str} {data ctx : List (Str × Option Str)} {fs : List (Py Field)}
    {igt : Obj} (h : makeIgt o key data ctx fs = .ok (some igt)) :
    ∃ i ts, igtId key = .ok i ∧ idAccepted i = true ∧ makeAllTiers o fs [] [] = .ok ts ∧
      igt = .mk { cls := .igt, id := some i, attrs := igtAttrs o (data ++ ctx) } [] ts := by
  simp only [makeIgt, bind, Except.bind] at h
  split at h
  · cases h
  rename_i i hi
  split at h
  · cases h
  rename_i ha
  split at h
  · rename_i ts hts
    cases h
    exact ⟨i, ts, hi, by simpa using ha, hts, rfl⟩
  · cases h
  · cases h

/-- C72: an imported igt has a tier for every mapped field of the record, in order, with every token
once, in order, numbered from 1 — and nothing else but the phrase tiers. -/
theorem C72_tokens (o : Opts) (key : Str) (data ctx : List (Str × Option Str)) (fs : List (Py Field))
    (igt : Obj) (h : makeIgt o key data ctx fs = .ok (some igt)) : Imported o fs igt.kids := by
  obtain ⟨i, ts, _, _, hts, rfl⟩ := makeIgt_inv h
  obtain ⟨ts', e, hi⟩ := makeAllTiers_imported o _ _ _ _ hts
  rw [List.nil_append] at e
  rw [Obj.kids_mk, e]
  exact hi

/-- C72: the IDs of the items of a tier are distinct. -/
theorem C72_ids_distinct {tid : Str} {toks : List Str} {t : Obj} (h : Holds tid toks t) :
    (t.kids.map fun x => x.data.id).Nodup := by
  rw [h.ids, List.nodup_iff_pairwise_ne, List.pairwise_map]
  refine List.Pairwise.imp ?_ (List.nodup_iff_pairwise_ne.1 List.nodup_range)
  intro a b hab e
  simp only [Option.some.injEq, List.append_cancel_left_eq] at e
  have := natStr_inj e
  omega

/-! ### C55: words select themselves -/

theorem join_snoc_prefix (sep : Str) (pre : List Str) (t : Str) (post : List Str) :
    ∃ suf, join sep (pre ++ t :: post) = (pre.flatMap fun x => x ++ sep) ++ (t ++ suf) := by
  induction pre with
  | nil =>
    cases post with
    | nil => exact ⟨[], by simp [join]⟩
    | cons p post => exact ⟨sep ++ join sep (p :: post), by simp [join]⟩
  | cons x pre ih =>
    obtain ⟨suf, e⟩ := ih
    refine ⟨suf, ?_⟩
    cases hq : pre ++ t :: post with
    | nil => simp at hq
    | cons q qs =>
      rw [List.cons_append, hq, join, ← hq, e]
      simp

theorem length_flatMap_space (pre : List Str) :
    (pre.flatMap fun x => x ++ [' ']).length = (pre.map List.length).sum + pre.length := by
  induction pre with
  | nil => rfl
  | cons x pre ih => simp [ih]; omega

theorem slice_mid (a t b : Str) :
    pySlice (a ++ (t ++ b)) (some (a.length : Int)) (some ((a.length + t.length : Nat) : Int)) = t := by
  have c1 : clip (a ++ (t ++ b)).length (a.length : Int) = a.length := by
    unfold clip; rw [if_neg (by omega)]; simp
  have c2 : clip (a ++ (t ++ b)).length ((a.length + t.length : Nat) : Int) = a.length + t.length := by
    unfold clip; rw [if_neg (by omega)]; simp only [List.length_append, Int.toNat_natCast]; omega
  simp only [pySlice, c1, c2]
  rw [List.drop_left', Nat.add_sub_cancel_left, List.take_left']
  · rfl
  · rfl

/-- a reference `i[b:e]` evaluates to that part of the value of the item -/
theorem resolve_span {get : Str → Option (Py (Option Str))} {i v : Str} {b e : Nat} (hi : IdOK i)
    (hg : get i = some (.ok (some v))) :
    resolve get (spanStr i (natStr b) (natStr e)) = .ok (pySlice v (some (b : Int)) (some (e : Int))) := by
  have hok : (⟨⟨i, some ⟨⟨natNum b, natNum e⟩, []⟩⟩, []⟩ : Expr).Simple := by
    refine ⟨⟨hi, ?_⟩, by simp⟩
    intro r hr
    cases hr
    exact ⟨⟨natNum_ok b, natNum_ok e⟩, by simp⟩
  have hr : (⟨⟨i, some ⟨⟨natNum b, natNum e⟩, []⟩⟩, []⟩ : Expr).render = spanStr i (natStr b) (natStr e) := by
    simp [Expr.render, Sel.render, Sel.rangeStr, RangeE.render, SpanE.render, natNum_render, spanStr]
  rw [← hr, C17_resolve get _ hok]
  simp [Expr.denote, Sel.denote, hg, denoteTail, Sel.select, SpanE.select, natNum_value, bind, Except.bind]

theorem refOf_none {ty tgt : Option Str} {s : Nat} {toks : List Str} {t r : Str} :
    refOf ty none tgt s toks t ≠ .ok r := by
  unfold refOf
  split <;> simp_all

theorem refOf_some {ty tgt : Option Str} {y : Obj} {s : Nat} {toks : List Str} {t r : Str}
    (h : refOf ty (some y) tgt s toks t = .ok r) : ∃ sp, spanOf ty tgt s toks t = .ok sp ∧
      r = fmtRef (y.data.id.getD (lit! "None")) sp := by
  unfold refOf at h
  cases hs : spanOf ty tgt s toks t with
  | error e => rw [hs] at h; cases h
  | ok sp => rw [hs] at h; cases h; exact ⟨sp, rfl, rfl⟩

/-- C55, one tier: the words of a field, segmented against the phrase made of the same field. -/
theorem C55_tier {pid wid ra : Str} {aln : List Aln} {p w igt : Obj} (hpid : IdOK pid)
    (hp : makePhraseTier pid aln = .ok p) (hw : makeTier (some WORDS) wid (some ra) aln (some p) = .ok w)
    (hfind : contGet igt.kids pid = some p) (fuel : Nat) (x : Obj) (hx : x ∈ w.kids) :
    ∃ t, x.data.text = some t ∧
      resolveRef (fun u i => value (fuel + 1) (some igt) (some u) i) (some igt) (some w) x ra = .ok t := by
  obtain ⟨rfl, _⟩ := makePhraseTier_inv hp
  have hi1 : IdOK (pid ++ natStr 1) := hpid.number 1
  unfold makeTier at hw
  split at hw
  · obtain ⟨rfl, _⟩ := mkTier_inv hw; cases hx
  simp only [bind, Except.bind] at hw
  split at hw
  · cases hw
  rename_i xs hxs
  obtain ⟨rfl, _⟩ := mkTier_inv hw
  simp only [Obj.kids_mk] at hx hxs
  -- only the first alignment has tokens
  obtain ⟨_, hall, hitems⟩ := alnItems_inv _ _ _ hxs
  obtain ⟨item, tgt, toks, pre, t, post, r, j, hm, e, hr, rfl⟩ := hitems x hx
  cases item with
  | none => exact absurd hr refOf_none
  | some y =>
    obtain ⟨k, hk1, hk2⟩ := zipLongest_mem hm
    have hk : k = 0 := by
      cases k with
      | zero => rfl
      | succ k => simp at hk1
    subst hk
    simp only [List.getElem?_cons_zero, Option.some.injEq] at hk1
    subst hk1
    cases aln with
    | nil => simp at hk2
    | cons a as =>
      simp only [List.getElem?_cons_zero, Option.some.injEq] at hk2
      subst hk2
      -- the others have none
      have hrest : tokens as = [] := by
        have h2 := hxs
        simp only [zipLongest, alnItems, bind, Except.bind] at h2
        split at h2
        · cases h2
        split at h2
        · cases h2
        rename_i zs hzs
        obtain ⟨hz1, _, hz3⟩ := alnItems_inv _ _ _ hzs
        have hzs0 : zs = [] := by
          cases zs with
          | nil => rfl
          | cons z zs =>
            obtain ⟨item', _, _, _, _, _, _, _, hm', _, hr', _⟩ := hz3 z (by simp)
            simp only [List.mem_map] at hm'
            obtain ⟨_, _, he⟩ := hm'
            cases he
            exact absurd hr' refOf_none
        have hz := hz1.1
        rw [hzs0] at hz
        have h0 : tokens as = (as.map fun y => ((none : Option Obj), some y)).flatMap
            fun p => (p.2.bind (·.2)).getD [] := by
          rw [List.flatMap_map]; rfl
        rw [h0]
        simpa using hz.symm
      have htok : tokens ((tgt, some toks) :: as) = toks := by
        rw [tokens, List.flatMap_cons]
        have : (as.flatMap fun a => a.2.getD []) = [] := hrest
        rw [this]; simp
      refine ⟨t, rfl, ?_⟩
      -- the reference
      obtain ⟨sp, hsp, hr⟩ := refOf_some hr
      cases tgt with
      | none => simp [spanOf, alignWord, Except.map] at hsp
      | some g =>
        simp only [spanOf, alignWord, Except.map, true_or, if_true, alignWords, Except.ok.injEq] at hsp
        rw [← hsp] at hr
        simp only [fmtRef, Obj.data_mk, Option.getD_some] at hr
        rw [if_pos (by omega)] at hr
        have htake : toks.take pre.length = pre := by rw [e, List.take_left']; rfl
        rw [htake] at hr
        obtain ⟨suf, hj⟩ := join_snoc_prefix [' '] pre t post
        rw [← e] at hj
        have hlen := length_flatMap_space pre
        simp only [resolveRef, Obj.data_mk, Dict.getItem, Dict.get?, if_true, bind, Except.bind, Option.getD_some, hfind]
        rw [hr]
        have hget : contGet [Obj.mk { cls := .item, id := some (pid ++ natStr 1), text := some (join [' '] (tokens ((some g, some toks) :: as))) } [] []] (pid ++ natStr 1) =
            some (Obj.mk { cls := .item, id := some (pid ++ natStr 1), text := some (join [' '] (tokens ((some g, some toks) :: as))) } [] []) := by
          simp [contGet]
        have hb : intStr (((pre.map List.length).sum + pre.length : Nat) : Int) = natStr ((pre.map List.length).sum + pre.length) := rfl
        have he : intStr ((((pre.map List.length).sum + pre.length : Nat) : Int) + (t.length : Int)) =
            natStr ((pre.map List.length).sum + pre.length + t.length) := rfl
        rw [hb, he]
        rw [resolve_span (v := join [' '] toks) hi1 (by
          simp only [Obj.kids_mk]
          rw [hget, htok]
          simp [value])]
        rw [hj]
        have := slice_mid (pre.flatMap fun x => x ++ [' ']) t suf
        rw [hlen] at this
        rw [this]

end
end Xigt.Tbx
