import Verif.Import.ToolboxXml
import Verif.Scripts.ValidateClean
/-
C136: what the Toolbox importer (/repo/xigt/importers/toolbox.py) makes, and the validator
(/repo/xigt/scripts/xigt_validate.py).
-/
set_option linter.unusedSectionVars false

namespace Xigt.Tbx
open Xigt.Vld

section
variable [Uni] [Lex]

/-- an ID for tiers that can be continued by a number: one that does not end in a digit itself -/
def TierId (tid : Str) : Prop := IdOK tid ∧ ∀ c, tid.getLast? = some c → Uni.digit c = none

/-- the ID of a tier and the number of an item can be told from the ID of the item -/
theorem number_inj {a b : Str} {m n : Nat} (ha : TierId a) (hb : TierId b) (h : a ++ natStr m = b ++ natStr n) : a = b := by
  have key : ∀ {a : Str} (n : Nat), TierId a → ((a ++ natStr n).reverse.dropWhile fun c => (Uni.digit c).isSome) = a.reverse := by
    intro a n ha
    have hall : ∀ (l r : Str), (∀ c ∈ l, (Uni.digit c).isSome = true) →
        ((l ++ r).dropWhile fun c => (Uni.digit c).isSome) = r.dropWhile fun c => (Uni.digit c).isSome := by
      intro l r hl
      induction l with
      | nil => rfl
      | cons c l ih =>
        simp only [List.cons_append, List.dropWhile_cons, hl c (List.mem_cons_self ..), if_true]
        exact ih fun c hc => hl c (List.mem_cons_of_mem _ hc)
    rw [List.reverse_append, hall _ _ (fun c hc => natStr_digits n c (List.mem_reverse.1 hc))]
    cases hr : a.reverse with
    | nil => rfl
    | cons c l =>
      have := ha.2 c (by rw [List.getLast?_eq_head?_reverse, hr]; rfl)
      simp [List.dropWhile_cons, this]
  have := key m ha
  rw [h, key n hb] at this
  exact (List.reverse_inj.1 this).symm

/-! ### What importing makes -/

/-- the items of a tier without references have none either, the items of others refer to items of the referred tier, or to a
part of one -/
def Linked (ts : List Obj) (t : Obj) : Prop :=
  (t.data.attrs = [] ∧ ∀ x ∈ t.kids, x.data.attrs = []) ∨
  ∃ ra u s, u ∈ ts ∧ u.data.id = some s ∧ t.data.attrs = [(ra, s)] ∧ ∀ x ∈ t.kids, ∃ y ∈ u.kids, ∃ i r, y.data.id = some i ∧
    x.data.attrs = [(ra, r)] ∧ (r = i ∨ ∃ b e : Nat, r = spanStr i (natStr b) (natStr e))

/-- tiers with different IDs, the items of which are numbered from 1 and have a text -/
structure Good (ts : List Obj) : Prop where
  distinct : (ts.map fun t => t.data.id).Nodup
  tiers : ∀ t ∈ ts, ∃ tid n, t.data.id = some tid ∧ TierId tid ∧
    (t.kids.map fun x => x.data.id) = (List.range n).map (fun k => some (tid ++ natStr (k + 1))) ∧ ∀ x ∈ t.kids, x.data.text ≠ none
  links : ∀ t ∈ ts, Linked ts t

theorem Linked.mono {ts ts' : List Obj} {t : Obj} (h : Linked ts t) (hs : ∀ u ∈ ts, u ∈ ts') : Linked ts' t := by
  rcases h with h | ⟨ra, u, s, hu, h⟩
  · exact .inl h
  · exact .inr ⟨ra, u, s, hs u hu, h⟩

theorem Good.snoc {ts : List Obj} {t : Obj} {tid : Str} {toks : List Str} (h : Good ts) (hn : ∀ y ∈ ts, y.data.id ≠ t.data.id)
    (hh : Holds tid toks t) (hid : TierId tid) (hl : Linked ts t) : Good (ts ++ [t]) := by
  refine ⟨?_, ?_, ?_⟩
  · rw [List.map_append, List.nodup_append]
    refine ⟨h.distinct, by simp, ?_⟩
    intro a ha b hb
    obtain ⟨y, hy, rfl⟩ := List.mem_map.1 ha
    simp only [List.map_cons, List.map_nil, List.mem_singleton] at hb
    subst hb
    exact hn y hy
  · intro u hu
    rcases List.mem_append.1 hu with hu | hu
    · exact h.tiers u hu
    · cases List.mem_singleton.1 hu
      refine ⟨tid, toks.length, hh.id, hid, hh.ids, ?_⟩
      intro x hx
      have : x.data.text ∈ t.kids.map fun x => x.data.text := List.mem_map.2 ⟨x, hx, rfl⟩
      rw [hh.texts] at this
      obtain ⟨s, _, hs⟩ := List.mem_map.1 this
      rw [← hs]; simp
  · intro u hu
    rcases List.mem_append.1 hu with hu | hu
    · exact (h.links u hu).mono fun _ => List.mem_append_left _
    · cases List.mem_singleton.1 hu
      exact hl.mono fun _ => List.mem_append_left _

theorem plainItems_attrs {tid : Str} : ∀ (as : List Aln) (i : Nat) (xs : List Obj), plainItems tid as i = .ok xs →
    ∀ x ∈ xs, x.data.attrs = [] := by
  have toks : ∀ (ts : List Str) (i : Nat) (xs : List Obj), plainToks tid ts i = .ok xs → ∀ x ∈ xs, x.data.attrs = [] := by
    intro ts
    induction ts with
    | nil => intro i xs h; cases h; simp
    | cons t ts ih =>
      intro i xs h
      simp only [plainToks, bind, Except.bind] at h
      split at h
      · cases h
      next x hx =>
      split at h
      · cases h
      next ys hys =>
      cases h
      intro y hy
      rcases List.mem_cons.1 hy with rfl | hy
      · rw [mkItem_inv hx]; rfl
      · exact ih _ _ hys y hy
  intro as
  induction as with
  | nil => intro i xs h; cases h; simp
  | cons a as ih =>
    intro i xs h
    obtain ⟨tgt, tk⟩ := a
    cases tk with
    | none => cases h
    | some tk =>
      simp only [plainItems, bind, Except.bind] at h
      split at h
      · cases h
      next ys hys =>
      split at h
      · cases h
      next zs hzs =>
      cases h
      intro y hy
      rcases List.mem_append.1 hy with hy | hy
      · exact toks _ _ _ hys y hy
      · exact ih _ _ hzs y hy

theorem makeTier_linked {ty : Option Str} {tid : Str} {ra : Option Str} {aln : List Aln} {algn : Option Obj} {t : Obj} {ts : List Obj}
    (h : makeTier ty tid ra aln algn = .ok t) (hu : ∀ u, algn = some u → u ∈ ts) (hg : Good ts) : Linked ts t := by
  unfold makeTier at h
  split at h
  · obtain ⟨rfl, _⟩ := mkTier_inv h
    exact .inl ⟨rfl, by simp⟩
  · split at h
    · next ra u =>
      simp only [bind, Except.bind] at h
      split at h
      · cases h
      next xs hxs =>
      obtain ⟨rfl, _⟩ := mkTier_inv h
      obtain ⟨_, _, hitems⟩ := alnItems_inv _ _ _ hxs
      have hum := hu u rfl
      obtain ⟨uid, n, e1, e2, e3, e4⟩ := hg.tiers u hum
      refine .inr ⟨ra, u, uid, hum, e1, by simp [e1], ?_⟩
      intro x hx
      obtain ⟨item, tgt, toks, pre, tok, post, r, j, hm, e, hr, rfl⟩ := hitems x hx
      cases item with
      | none => exact absurd hr refOf_none
      | some y =>
        obtain ⟨k, hk1, -⟩ := zipLongest_mem hm
        have hym := List.mem_of_getElem? hk1
        have : y.data.id ∈ u.kids.map fun x => x.data.id := List.mem_map.2 ⟨y, hym, rfl⟩
        rw [e3] at this
        obtain ⟨m, _, hi⟩ := List.mem_map.1 this
        exact ⟨y, hym, _, r, hi.symm, rfl, refOf_ids hr hi.symm⟩
    · simp only [bind, Except.bind] at h
      split at h
      · cases h
      next xs hxs =>
      obtain ⟨rfl, _⟩ := mkTier_inv h
      exact .inl ⟨rfl, plainItems_attrs _ _ _ hxs⟩

/-- the IDs of tiers in the options -/
structure TierIds (o : Opts) : Prop where
  map : ∀ mkr tid, Dict.get? o.tierMap mkr = some tid → TierId tid
  phrase : ∀ w p, o.phrase = some (w, p) → TierId p

theorem makeAllTiers_good {o : Opts} (ho : TierIds o) : ∀ (fs : List (Py Field)) (prev : Dict Str Obj) (done r : List Obj),
    Good done → (∀ a u, Dict.get? prev a = some u → u ∈ done) → makeAllTiers o fs prev done = .ok r → Good r := by
  intro fs
  induction fs with
  | nil => intro prev done r hi _ h; cases h; exact hi
  | cons f fs ih =>
    intro prev done r hi hp h
    cases f with
    | error e => cases h
    | ok f =>
      obtain ⟨mkr, aln⟩ := f
      cases hm : Dict.get? o.tierMap mkr with
      | none =>
        simp only [makeAllTiers, hm] at h
        exact ih _ _ _ hi hp h
      | some tid =>
        obtain ⟨prev', done', ty, t, hps, -, ht, hn, hr⟩ := makeAllTiers_step hm h
        have h1 : Good done' ∧ ∀ a u, Dict.get? prev' a = some u → u ∈ done' := by
          rcases phraseStep_inv hps with ⟨-, rfl, rfl⟩ | ⟨pid, p, hph, hpt, rfl, rfl, hpn⟩
          · exact ⟨hi, hp⟩
          · refine ⟨hi.snoc hpn (makePhraseTier_holds hpt) (ho.phrase _ _ hph) (.inl ?_), ?_⟩
            · obtain ⟨rfl, -⟩ := makePhraseTier_inv hpt
              exact ⟨rfl, by simp⟩
            · intro a u ha
              rw [Dict.get?_set] at ha
              split at ha
              · cases ha; simp
              · exact List.mem_append_left _ (hp a u ha)
        refine ih _ _ _ (h1.1.snoc hn (makeTier_holds ht).1 (ho.map _ _ hm) (makeTier_linked ht ?_ h1.1)) ?_ hr
        · intro u hu
          cases ha : (alignmentOf o tid).2 with
          | none => rw [ha] at hu; cases hu
          | some a => rw [ha] at hu; exact h1.2 a u hu
        · intro a u ha
          rw [Dict.get?_set] at ha
          split at ha
          · cases ha; simp
          · exact List.mem_append_left _ (h1.2 a u ha)

theorem makeIgt_good {o : Opts} (ho : TierIds o) {key : Str} {data ctx : List (Str × Option Str)} {fs : List (Py Field)} {g : Obj}
    (h : makeIgt o key data ctx fs = .ok (some g)) : Good g.kids := by
  obtain ⟨i, ts, -, -, hts, rfl⟩ := makeIgt_inv h
  exact makeAllTiers_good ho fs [] [] ts ⟨by simp, by simp, by simp⟩ (by intro a u h; cases h) hts

theorem toolboxIgts_good {o : Opts} (ho : TierIds o) {k : Str} : ∀ (rs : List Record) (xs : List Obj), toolboxIgts o k rs = .ok xs →
    ∀ g ∈ xs, Good g.kids := by
  intro rs
  induction rs with
  | nil => intro xs h; cases h; simp
  | cons r rs ih =>
    intro xs h
    unfold toolboxIgts at h
    split at h
    · simp only [bind, Except.bind] at h
      split at h
      · cases h
      next x hx =>
      split at h
      · cases h
      next ys hys =>
      cases h
      intro g hg
      rcases List.mem_append.1 hg with hg | hg
      · cases x with
        | none => cases hg
        | some x =>
          cases List.mem_singleton.1 hg
          exact makeIgt_good ho hx
      · exact ih _ hys g hg
    · exact ih _ h

/-! ### It is clean -/

theorem Good.item {ts : List Obj} (h : Good ts) {t : Obj} (ht : t ∈ ts) {x : Obj} (hx : x ∈ t.kids) : ∃ tid k, t.data.id = some tid ∧
    TierId tid ∧ x.data.id = some (tid ++ natStr k) ∧ x.data.text ≠ none := by
  obtain ⟨tid, n, h1, h2, h3, h4⟩ := h.tiers t ht
  have : x.data.id ∈ t.kids.map fun x => x.data.id := List.mem_map.2 ⟨x, hx, rfl⟩
  rw [h3] at this
  obtain ⟨k, _, e⟩ := List.mem_map.1 this
  exact ⟨tid, k + 1, h1, h2, e.symm, h4 x hx⟩

theorem ids_ref {i r : Str} (hi : IdOK i) (h : r = i ∨ ∃ b e : Nat, r = spanStr i (natStr b) (natStr e)) : ids r = [i] := by
  rcases h with rfl | ⟨b, e, rfl⟩
  · exact (C09_partial r).2.2 hi |>.2
  · exact ids_span hi

theorem std_ref {i r : Str} (hi : IdOK i) (h : r = i ∨ ∃ b e : Nat, r = spanStr i (natStr b) (natStr e)) :
    ∃ E, Std E ∧ r = E.render := by
  rcases h with rfl | ⟨b, e, rfl⟩
  · refine ⟨⟨⟨r, none⟩, []⟩, ⟨⟨⟨hi, by simp⟩, by simp⟩, by simp, ?_⟩, by simp [Expr.render, Sel.render, Sel.rangeStr]⟩
    intro s hs q hq
    simp only [Expr.sels, List.map_nil, List.mem_singleton] at hs
    subst hs; cases hq
  · refine ⟨⟨⟨i, some ⟨⟨natNum b, natNum e⟩, []⟩⟩, []⟩, ⟨⟨⟨hi, ?_⟩, by simp⟩, by simp, ?_⟩, ?_⟩
    · intro q hq
      cases hq
      exact ⟨⟨natNum_ok b, natNum_ok e⟩, by simp⟩
    · intro s hs q hq
      simp only [Expr.sels, List.map_nil, List.mem_singleton] at hs
      subst hs; cases hq; simp
    · simp [Expr.render, Sel.render, Sel.rangeStr, RangeE.render, SpanE.render, natNum_render, spanStr]

theorem get_single {a b v w : Str} (h : Dict.get? ([(a, v)] : Dict Str Str) b = some w) : a = b ∧ v = w := by
  simp only [Dict.get?] at h
  split at h
  · next hab => cases h; exact ⟨hab, rfl⟩
  · cases h

theorem Good.clean {g : Obj} (h : Good g.kids) : Clean g := by
  have pw : g.kids.Pairwise fun a b => a.data.id ≠ b.data.id := by
    have := h.distinct
    rwa [List.nodup_iff_pairwise_ne, List.pairwise_map] at this
  refine ⟨fun j t => not_repeated h.distinct j t, ?_, ?_, ?_, ?_, ?_⟩
  · intro j t ht k x
    obtain ⟨tid, n, h1, h2, h3, h4⟩ := h.tiers t (List.mem_of_getElem? ht)
    refine not_repeated ?_ k x
    rw [h3, List.nodup_iff_pairwise_ne, List.pairwise_map]
    refine List.Pairwise.imp ?_ (List.nodup_iff_pairwise_ne.1 List.nodup_range)
    intro a b hab e
    simp only [Option.some.injEq, List.append_cancel_left_eq] at e
    have := natStr_inj e
    omega
  · intro j' t' j t hj' hj y hy x hx s hys hxs
    obtain ⟨a, m, a1, a2, a3, -⟩ := h.item (List.mem_of_getElem? hj') hy
    obtain ⟨b, n, b1, b2, b3, -⟩ := h.item (List.mem_of_getElem? hj) hx
    rw [a3] at hys
    rw [b3] at hxs
    cases hys
    injection hxs with hxs
    have := number_inj b2 a2 hxs
    subst this
    have e1 : (g.kids.map fun x => x.data.id)[j]? = some (some b) := by rw [List.getElem?_map, hj]; simp [b1]
    have e2 : (g.kids.map fun x => x.data.id)[j']? = some (some b) := by rw [List.getElem?_map, hj']; simp [a1]
    obtain ⟨l1, g1⟩ := List.getElem?_eq_some_iff.1 e1
    obtain ⟨l2, g2⟩ := List.getElem?_eq_some_iff.1 e2
    exact (List.getElem_inj h.distinct).1 (g2.trans g1.symm)
  · intro t ht x hx ra _ hne
    rcases h.links t ht with ⟨-, h2⟩ | ⟨ra', u, s, hu, hs, h1, h2⟩
    · rw [h2 x hx] at hne; exact absurd rfl hne
    · obtain ⟨y, -, i, r, -, hxa, -⟩ := h2 x hx
      rw [hxa] at hne
      cases hg : Dict.get? ([(ra', r)] : Dict Str Str) ra with
      | none => exact absurd hg hne
      | some w =>
        obtain ⟨rfl, -⟩ := get_single hg
        rw [h1]; simp [Dict.get?]
  · intro t ht ra _ s hs
    rcases h.links t ht with ⟨h1, -⟩ | ⟨ra', u, s', hu, hs', h1, -⟩
    · rw [h1] at hs; cases hs
    · rw [h1] at hs
      obtain ⟨-, rfl⟩ := get_single hs
      exact contGet_of_id hu hs'
  · intro t ht x hx ra _ e s u he hs hc i hi
    rcases h.links t ht with ⟨h1, -⟩ | ⟨ra', u', s', hu, hs', h1, h2⟩
    · rw [h1] at hs; cases hs
    · rw [h1] at hs
      obtain ⟨rfl, rfl⟩ := get_single hs
      rw [find_of_distinct pw hu hs'] at hc
      cases hc
      obtain ⟨y, hy, i', r, hyi, hxa, hr⟩ := h2 x hx
      rw [hxa] at he
      obtain ⟨-, rfl⟩ := get_single he
      obtain ⟨uid, m, -, k2, k3, -⟩ := h.item hu hy
      have hok : IdOK i' := by
        rw [k3] at hyi; cases hyi; exact k2.1.number m
      rw [ids_ref hok hr] at hi
      cases List.mem_singleton.1 hi
      exact contGet_of_id hy hyi

theorem Good.checkable {g : Obj} (h : Good g.kids) (depth : Nat) : Checkable (depth + 1) g := by
  have val : ∀ t ∈ g.kids, ∀ x ∈ t.kids, ∀ q, ∃ s, value (depth + 1) (some g) q x = .ok (some s) := by
    intro t ht x hx q
    obtain ⟨-, -, -, -, -, h1⟩ := h.item ht hx
    obtain ⟨s, hs⟩ := Option.ne_none_iff_exists'.1 h1
    exact ⟨s, value_text hs ..⟩
  refine ⟨?_, ?_, ?_, ?_, ?_⟩
  · intro t ht i hi
    obtain ⟨tid, n, h1, h2, -⟩ := h.tiers t ht
    rw [h1] at hi; cases hi; exact h2.1
  · intro t ht x hx i hi
    obtain ⟨tid, k, -, h2, h3, -⟩ := h.item ht hx
    rw [h3] at hi; cases hi; exact h2.1.number k
  · intro t ht x hx ra _ e he _
    rcases h.links t ht with ⟨-, h2⟩ | ⟨ra', u, s, hu, hs, h1, h2⟩
    · rw [h2 x hx] at he; cases he
    · obtain ⟨y, hy, i, r, hyi, hxa, hr⟩ := h2 x hx
      rw [hxa] at he
      obtain ⟨-, rfl⟩ := get_single he
      obtain ⟨uid, m, -, k2, k3, -⟩ := h.item hu hy
      refine std_ref ?_ hr
      rw [k3] at hyi; cases hyi; exact k2.1.number m
  · intro t ht x hx
    obtain ⟨s, hs⟩ := val t ht x hx (some t)
    exact ⟨_, hs⟩
  · intro t ht x hx ra E u hir _ s _ _ y hy hv
    obtain ⟨w, hw⟩ := val u (itemRef_mem hir).1 y (List.mem_of_find?_eq_some hy) (some u)
    rw [hw] at hv
    cases hv

/-- igts with good tiers and different IDs pass -/
theorem good_passes {igts : List Obj} (h : ∀ g ∈ igts, Good g.kids) (hd : (igts.map fun g => g.data.id).Nodup) (depth : Nat)
    (seen : List Str) (c : Obj) (hc : ∀ s, c.data.id = some s → s ∉ seen) :
    ∃ r, validateCorpus (depth + 1) seen ⟨c, igts.map .ok⟩ = .ok r ∧ ¬ Problem ERROR r := by
  obtain ⟨r, hr⟩ := C70_finishes (depth + 1) seen c igts fun g hg => (h g hg).checkable depth
  exact ⟨r, hr, clean_passes hr hc (fun i g => not_repeated hd i g) fun g hg => (h g hg).clean⟩

/-! ### The same after reading -/

theorem Good.same {x y : Obj} (h : SameData x y) (hy : Good y.kids) : Good x.kids := by
  refine ⟨by rw [same_ids h]; exact hy.distinct, ?_, ?_⟩
  · intro t ht
    obtain ⟨u, hu, hs⟩ := same_left h ht
    obtain ⟨tid, n, h1, h2, h3, h4⟩ := hy.tiers u hu
    refine ⟨tid, n, (same_inv hs).1.trans h1, h2, (same_ids hs).trans h3, ?_⟩
    intro a ha
    obtain ⟨b, hb, hab⟩ := same_left hs ha
    rw [(same_inv hab).2.1]
    exact h4 b hb
  · intro t ht
    obtain ⟨u, hu, hs⟩ := same_left h ht
    have p := (same_inv hs).2.2.1
    rcases hy.links u hu with ⟨h1, h2⟩ | ⟨ra, v, s, hv, hvs, h1, h2⟩
    · refine .inl ⟨by rw [h1] at p; exact p.eq_nil, ?_⟩
      intro a ha
      obtain ⟨b, hb, hab⟩ := same_left hs ha
      have q := (same_inv hab).2.2.1
      rw [h2 b hb] at q
      exact q.eq_nil
    · obtain ⟨v', hv', hsv⟩ := same_right h hv
      refine .inr ⟨ra, v', s, hv', (same_inv hsv).1.trans hvs, by rw [h1] at p; exact p.eq_singleton, ?_⟩
      intro a ha
      obtain ⟨b, hb, hab⟩ := same_left hs ha
      obtain ⟨c, hc, i, r, k1, k2, k3⟩ := h2 b hb
      obtain ⟨c', hc', hsc⟩ := same_right hsv hc
      have q := (same_inv hab).2.2.1
      rw [k2] at q
      exact ⟨c', hc', i, r, (same_inv hsc).1.trans k1, q.eq_singleton, k3⟩

/-! ### C136 -/

/-- **C136** for tier IDs that do not end in a digit and keys that give different IDs: the validator finishes with the corpus of
what is imported from Toolbox, and reports no error.  Missing: other tier IDs and keys (`C136_refuted`, `C136_refuted_keys`). -/
theorem C136_partial (o : Opts) (ho : TierIds o) (k : Str) (rs : List Record) (xs : List Obj) (h : toolboxIgts o k rs = .ok xs)
    (hd : (xs.map fun x => x.data.id).Nodup) (depth : Nat) (seen : List Str) :
    ∃ r, validateCorpus (depth + 1) seen ⟨corpus xs, xs.map .ok⟩ = .ok r ∧ ¬ Problem ERROR r :=
  good_passes (toolboxIgts_good ho rs xs h) hd depth seen _ (by intro s hs; cases hs)

end

section
variable [Uni] [XmlLex] [Lex]

/-- **C136**, through the file: with what C93 asks for as well, the written file can be read, and what is read passes. -/
theorem C136_file (o : Opts) (k : Str) (ho : OptsOK o) (hid : TierIds o) (rs : List Record) (hr : ∀ r ∈ rs, RecordOK o k r)
    (xs : List Obj) (h : toolboxIgts o k rs = .ok xs) (hd : (xs.map fun x => x.data.id).Nodup) (look : Nat → Nat)
    (ind : Option Int) (depth : Nat) (seen : List Str) :
    ∃ y r, writeRead look ind (corpus xs) = .ok y ∧ validateCorpus (depth + 1) seen ⟨y, y.kids.map .ok⟩ = .ok r ∧
      ¬ Problem ERROR r := by
  obtain ⟨y, h1, h2, -⟩ := C93_partial o k ho rs hr xs h hd look ind
  have hg : ∀ g ∈ y.kids, Good g.kids := by
    intro g hg
    obtain ⟨b, hb, hs⟩ := same_left h2 hg
    exact .same hs (toolboxIgts_good hid rs xs h b hb)
  obtain ⟨r, h3, h4⟩ := good_passes hg (by rw [same_ids h2]; exact hd) depth seen y (by
    intro s hs
    rw [(same_inv h2).1] at hs
    cases hs)
  exact ⟨y, r, h1, h3, h4⟩

end

section
attribute [local instance] asciiUni asciiXml Tbx.asciiLex

theorem tierId_of {c : Char} {cs : Str} (h0 : letter c = true) (h : ∀ x ∈ cs, idChar x = true)
    (hl : ∀ x, (c :: cs).getLast? = some x → Uni.digit x = none) : TierId (c :: cs) :=
  ⟨⟨c, cs, rfl, h0, h⟩, hl⟩

/-- the default options meet the condition -/
theorem defaults_tierIds : TierIds defaults := by
  have one : ∀ c : Char, letter c = true → Uni.digit c = none → TierId [c] := fun c h1 h2 =>
    tierId_of h1 (by simp) (by intro x hx; cases hx; exact h2)
  refine ⟨?_, ?_⟩
  · intro mkr tid h
    have := Dict.get?_mem h
    simp only [defaults, List.mem_cons, List.not_mem_nil, or_false, Prod.mk.injEq] at this
    rcases this with ⟨_, rfl⟩ | ⟨_, rfl⟩ | ⟨_, rfl⟩ | ⟨_, rfl⟩ | ⟨_, rfl⟩
    · exact one _ (by decide) (by decide)
    · exact one _ (by decide) (by decide)
    · exact one _ (by decide) (by decide)
    · exact tierId_of (by decide) (by decide) (by intro x hx; cases hx; decide)
    · exact one _ (by decide) (by decide)
  · rintro w p ⟨⟩
    exact one _ (by decide) (by decide)

/-- a record with morphemes and glosses -/
def full : Record where
  context := [(lit! "\\ref", some (lit! "7"))]
  data := []
  fields := [.ok (lit! "\\t", [(some (lit! "inu wan"), some [lit! "inu", lit! "wan"])]),
    .ok (lit! "\\m", [(some (lit! "inu"), some [lit! "in", lit! "-u"]), (some (lit! "wan"), some [lit! "wan"])]),
    .ok (lit! "\\g", [(some (lit! "in"), some [lit! "dog"]), (some (lit! "-u"), some [lit! "-S"]), (some (lit! "wan"), some [lit! "bark"])])]

/-- the hypotheses of `C136_partial` are met: four tiers, spans and alignments -/
example : ∃ xs r, toolboxIgts defaults (lit! "\\ref") [full] = .ok xs ∧ (xs.map fun g => g.kids.map fun t => t.kids.length) = [[1, 2, 3, 3]] ∧
    validateCorpus 1 [] ⟨corpus xs, xs.map .ok⟩ = .ok r ∧ ¬ Problem ERROR r := by
  obtain ⟨r, h1, h2⟩ := C136_partial defaults defaults_tierIds (lit! "\\ref") [full] _ rfl (by decide +kernel) 0 []
  exact ⟨_, r, rfl, by decide +kernel, h1, h2⟩

/-- whether a corpus of igts has errors, if the validator finishes -/
def erroneous (r : Py (List Obj)) : Option Bool :=
  match r with
  | .error _ => none
  | .ok xs => match validateCorpus 9 [] ⟨corpus xs, xs.map .ok⟩ with
    | .error _ => none
    | .ok r => some (filterEmpty ERROR r).isTrue

theorem erroneous_true {p : Py (List Obj)} (h : erroneous p = some true) : ∃ xs r, p = .ok xs ∧
    validateCorpus 9 [] ⟨corpus xs, xs.map .ok⟩ = .ok r ∧ Problem ERROR r := by
  unfold erroneous at h
  split at h
  · cases h
  next xs =>
  split at h
  · cases h
  next r hr => exact ⟨xs, r, rfl, hr, (filterEmpty_true ERROR r).1 (by simpa using h)⟩

/-- options with a tier `a` and a tier `a1` -/
def numbered : Opts :=
  { defaults with tierMap := [(lit! "\\t", lit! "a"), (lit! "\\m", lit! "a1")], phrase := none,
                  tierTypes := [(lit! "a", some WORDS), (lit! "a1", some WORDS)], alignments := [] }

def eleven : Record where
  context := [(lit! "\\ref", some (lit! "7"))]
  data := []
  fields := [.ok (lit! "\\t", [(none, some (List.replicate 11 (lit! "x")))]), .ok (lit! "\\m", [(none, some [lit! "y"])])]

/-- **C136** is false as stated: if a tier has the ID of another followed by a digit, items of both can get the same ID. -/
theorem C136_refuted : ∃ o k rs xs r, toolboxIgts o k rs = .ok xs ∧ validateCorpus 9 [] ⟨corpus xs, xs.map .ok⟩ = .ok r ∧
    Problem ERROR r := by
  obtain ⟨xs, r, h1, h2, h3⟩ := erroneous_true (p := toolboxIgts numbered (lit! "\\ref") [eleven]) (by decide +kernel)
  exact ⟨_, _, _, xs, r, h1, h2, h3⟩

/-- **C136** is false as stated with the default options too: keys `7` and `igt7` give the same ID. -/
theorem C136_refuted_keys : ∃ r s xs p, toolboxIgts defaults (lit! "\\ref") [r, s] = .ok xs ∧
    validateCorpus 9 [] ⟨corpus xs, xs.map .ok⟩ = .ok p ∧ Problem ERROR p := by
  obtain ⟨xs, r, h1, h2, h3⟩ := erroneous_true
    (p := toolboxIgts defaults (lit! "\\ref") [oneWord (lit! "7") (lit! "a"), oneWord (lit! "igt7") (lit! "b")]) (by decide +kernel)
  exact ⟨_, _, xs, r, h1, h2, h3⟩

end

end Xigt.Tbx
