import Verif.Import.ToolboxFile
import Verif.Import.OdinXml
/-
C93: what the Toolbox importer writes can be read.
-/
set_option linter.unusedSectionVars false

namespace Xigt.Tbx
open Xigt.Odin (Fine TextOK natStr_chars xmlChars_lit)

section
variable [Uni] [XmlLex] [Lex]

/-- toolbox.py:129: the corpus of the imported igts -/
def corpus (igts : List Obj) : Obj := .mk { cls := .corpus } [] igts

/-! ### Conditions -/

/-- the name of an attribute without namespace that survives -/
def PlainName (k : Str) : Prop := XmlLex.ncName k = true ∧ k ≠ lit! "id" ∧ k ≠ lit! "type" ∧ k ≠ lit! "xmlns"

/-- options whose tier IDs and types have legal characters and whose attributes are names -/
structure OptsOK (o : Opts) : Prop where
  tiers : ∀ mkr tid, Dict.get? o.tierMap mkr = some tid → XmlChars tid
  phrase : ∀ wid pid, o.phrase = some (wid, pid) → XmlChars pid
  types : ∀ tid ty, Dict.get? o.tierTypes tid = some (some ty) → XmlChars ty
  refs : ∀ tid ra aid, Dict.get? o.alignments tid = some (some ra, aid) → PlainName ra
  attrs : ∀ mkr a, Dict.get? o.attMap mkr = some a → PlainName a

/-- tokens are not empty and have legal characters; a line of which a phrase is made has a token -/
structure FieldOK (o : Opts) (f : Field) : Prop where
  tokens : ∀ t ∈ tokens f.2, t ≠ [] ∧ TextOK t
  phrase : ∀ tid pid, Dict.get? o.tierMap f.1 = some tid → o.phrase = some (tid, pid) → Tbx.tokens f.2 ≠ []

/-- a record whose tokens are as above and whose key and values have legal characters -/
structure RecordOK (o : Opts) (k : Str) (r : Record) : Prop where
  key : ∀ key, Dict.get? r.context k = some (some key) → XmlChars key
  values : ∀ m v, (m, some v) ∈ r.data ++ r.context → XmlChars v
  fields : ∀ f, .ok f ∈ r.fields → FieldOK o f

/-! ### Everything made is fine -/

theorem XmlChars.app {a b : Str} (ha : XmlChars a) (hb : XmlChars b) : XmlChars (a ++ b) := Odin.XmlChars.append ha hb

theorem intStr_chars (i : Int) : XmlChars (intStr i) := by
  cases i with
  | ofNat n => exact natStr_chars n
  | negSucc n => exact XmlChars.app (a := ['-']) (xmlChars_lit _ (by decide)) (natStr_chars _)

theorem spanStr_chars {i : Str} (hi : XmlChars i) (a b : Int) : XmlChars (spanStr i (intStr a) (intStr b)) := by
  unfold spanStr
  exact XmlChars.app hi (XmlChars.app (a := ['[']) (xmlChars_lit _ (by decide)) (XmlChars.app (intStr_chars a)
    (XmlChars.app (a := [':']) (xmlChars_lit _ (by decide)) (XmlChars.app (intStr_chars b) (xmlChars_lit _ (by decide))))))

/-- references written as attributes -/
def AttrsOK (a : Dict Str Str) : Prop := a.WF ∧ ∀ k v, (k, v) ∈ a → XmlChars v ∧ PlainName k

theorem AttrsOK.nil : AttrsOK [] := ⟨Dict.wf_nil, by simp⟩
theorem AttrsOK.one {k v : Str} (hk : PlainName k) (hv : XmlChars v) : AttrsOK [(k, v)] := by
  refine ⟨Odin.wf_one, fun a b h => ?_⟩
  cases List.mem_singleton.1 h
  exact ⟨hv, hk⟩

theorem item_fine {tid : Str} {i : Nat} {t : Str} {a : Dict Str Str} {x : Obj} (h : mkItem tid i t a = .ok x) (hid : XmlChars tid)
    (ht : t ≠ [] ∧ TextOK t) (ha : AttrsOK a) : x.cls = .item ∧ Fine [] x := by
  obtain ⟨rfl, hacc⟩ := construct_inv h
  refine ⟨rfl, .mk ha.1 (by simp [Cls.hasText]) (by simp) (by simp) (by simp) (by simp) (by simp) (by simp),
    .mk hacc (by simp) (by exact List.nodup_nil) (by exact List.nodup_nil) (by simp) (by simp) (by simp),
    .mk ⟨by simp, by simp, by simp, by simp, ?_, by simp, ?_, ?_, by simp, ?_⟩ (by simp) (by simp), .mk (by simp) (by simp) (by simp)⟩
  · rintro _ ⟨⟩; exact ht.1 rfl
  · rintro s ⟨⟩; exact ht.2
  · rintro s ⟨⟩; exact XmlChars.app hid (natStr_chars _)
  · intro k v hkv
    exact ⟨(ha.2 k v hkv).1, .inl (ha.2 k v hkv).2⟩

/-- a tier that survives, and so do its items -/
def GoodTier (t : Obj) : Prop := t.cls = .tier ∧ Fine [] t ∧ ∀ x ∈ t.kids, Fine [] x

theorem tier_fine {ty : Option Str} {tid : Str} {a : Dict Str Str} {xs : List Obj} {toks : List Str} {t : Obj}
    (h : mkTier ty tid a xs = .ok t) (hh : Holds tid toks t) (hid : XmlChars tid) (hty : ∀ y, ty = some y → XmlChars y) (ha : AttrsOK a)
    (hx : ∀ x ∈ xs, x.cls = .item ∧ Fine [] x) : GoodTier t := by
  have hd := C72_ids_distinct hh
  obtain ⟨rfl, hacc⟩ := mkTier_inv h
  refine ⟨rfl, ⟨.mk ha.1 (by simp) (by simp) (by simp [Cls.hasMd]) (by simp) ?_ (by simp) (fun x h => (hx x h).2.1),
    .mk (by rintro i ⟨⟩; exact hacc) (by simp) (by exact List.nodup_nil) ?_ (by simp) (by simp) (fun x h => (hx x h).2.2.1),
    .mk ⟨by simp, by simp, by simp, by simp, by simp, by simp, by simp, ?_, hty, ?_⟩ (by simp) (fun x h => (hx x h).2.2.2.1),
    .mk (by simp) (by simp) (fun x h => (hx x h).2.2.2.2)⟩, fun x h => (hx x h).2⟩
  · intro x h; rw [(hx x h).1]; rfl
  · rw [Obj.kids_mk] at hd
    rw [List.nodup_iff_pairwise_ne, List.pairwise_filterMap]
    rw [List.nodup_iff_pairwise_ne, List.pairwise_map] at hd
    refine hd.imp ?_
    intro x y hne a ha b hb e
    exact hne (by rw [ha, hb, e])
  · rintro i ⟨⟩; exact hid
  · intro k v hkv
    exact ⟨(ha.2 k v hkv).1, .inl (ha.2 k v hkv).2⟩

theorem id_chars {x : Obj} (h : Fine [] x) : XmlChars (x.data.id.getD (lit! "None")) := by
  obtain ⟨d, md, kids⟩ := x
  cases h.2.2.1 with
  | mk h1 _ _ =>
  show XmlChars (d.id.getD (lit! "None"))
  cases hd : d.id with
  | none => exact xmlChars_lit _ (by decide)
  | some i => exact h1.id i hd

theorem refOf_chars {ty : Option Str} {item : Option Obj} {tgt : Option Str} {s : Nat} {toks : List Str} {t r : Str}
    (hi : ∀ x, item = some x → Fine [] x) (h : refOf ty item tgt s toks t = .ok r) : XmlChars r := by
  unfold refOf at h
  split at h
  · cases h
  · cases h
  · next span it hs =>
    cases h
    have := id_chars (hi it rfl)
    unfold fmtRef
    split
    · split
      · exact spanStr_chars this _ _
      · exact this
    · exact this

theorem refItems_fine {ty : Option Str} {tid ra : Str} {item : Option Obj} {tgt : Option Str} {toks : List Str} (hid : XmlChars tid)
    (hra : PlainName ra) (hi : ∀ x, item = some x → Fine [] x) : ∀ (ts : List Str) (s i : Nat) (xs : List Obj),
    (∀ t ∈ ts, t ≠ [] ∧ TextOK t) → refItems ty tid ra item tgt toks ts s i = .ok xs → ∀ x ∈ xs, x.cls = .item ∧ Fine [] x := by
  intro ts
  induction ts with
  | nil => intro s i xs _ h; cases h; simp
  | cons t ts ih =>
    intro s i xs ht h
    simp only [refItems, bind, Except.bind] at h
    split at h
    · cases h
    next r hr =>
    split at h
    · cases h
    next x hx =>
    split at h
    · cases h
    next ys hys =>
    cases h
    intro y hy
    rcases List.mem_cons.1 hy with rfl | hy
    · exact item_fine hx hid (ht t (by simp)) (.one hra (refOf_chars hi hr))
    · exact ih _ _ _ (fun t h => ht t (by simp [h])) hys y hy

theorem alnItems_fine {ty : Option Str} {tid ra : Str} (hid : XmlChars tid) (hra : PlainName ra) :
    ∀ (ps : List (Option Obj × Option Aln)) (i : Nat) (xs : List Obj), (∀ p ∈ ps, ∀ x, p.1 = some x → Fine [] x) →
    (∀ p ∈ ps, ∀ a, p.2 = some a → ∀ t ∈ a.2.getD [], t ≠ [] ∧ TextOK t) → alnItems ty tid ra ps i = .ok xs →
    ∀ x ∈ xs, x.cls = .item ∧ Fine [] x := by
  intro ps
  induction ps with
  | nil => intro i xs _ _ h; cases h; simp
  | cons p ps ih =>
    intro i xs hf ht h
    obtain ⟨item, a⟩ := p
    cases a with
    | none => simp only [alnItems] at h; cases h
    | some a =>
      obtain ⟨tgt, toks⟩ := a
      cases toks with
      | none => simp only [alnItems] at h; cases h
      | some toks =>
        simp only [alnItems, bind, Except.bind] at h
        split at h
        · cases h
        next xs' hxs =>
        split at h
        · cases h
        next ys hys =>
        cases h
        intro y hy
        rcases List.mem_append.1 hy with hy | hy
        · exact refItems_fine hid hra (hf _ (List.mem_cons_self ..)) _ _ _ _ (ht _ (List.mem_cons_self ..) _ rfl) hxs y hy
        · exact ih _ _ (fun p hp => hf p (by simp [hp])) (fun p hp => ht p (by simp [hp])) hys y hy

theorem plainToks_fine {tid : Str} (hid : XmlChars tid) : ∀ (ts : List Str) (i : Nat) (xs : List Obj), (∀ t ∈ ts, t ≠ [] ∧ TextOK t) →
    plainToks tid ts i = .ok xs → ∀ x ∈ xs, x.cls = .item ∧ Fine [] x := by
  intro ts
  induction ts with
  | nil => intro i xs _ h; cases h; simp
  | cons t ts ih =>
    intro i xs ht h
    simp only [plainToks, bind, Except.bind] at h
    split at h
    · cases h
    next x hx =>
    split at h
    · cases h
    next ys hys =>
    cases h
    intro y hy
    rcases List.mem_cons.1 hy with rfl | hy
    · exact item_fine hx hid (ht t (by simp)) .nil
    · exact ih _ _ (fun t h => ht t (by simp [h])) hys y hy

theorem plainItems_fine {tid : Str} (hid : XmlChars tid) : ∀ (as : List Aln) (i : Nat) (xs : List Obj),
    (∀ a ∈ as, ∀ t ∈ a.2.getD [], t ≠ [] ∧ TextOK t) → plainItems tid as i = .ok xs → ∀ x ∈ xs, x.cls = .item ∧ Fine [] x := by
  intro as
  induction as with
  | nil => intro i xs _ h; cases h; simp
  | cons a as ih =>
    intro i xs ht h
    obtain ⟨tgt, toks⟩ := a
    cases toks with
    | none => simp only [plainItems] at h; cases h
    | some toks =>
      simp only [plainItems, bind, Except.bind] at h
      split at h
      · cases h
      next xs' hxs =>
      split at h
      · cases h
      next ys hys =>
      cases h
      intro y hy
      rcases List.mem_append.1 hy with hy | hy
      · exact plainToks_fine hid _ _ _ (ht _ (List.mem_cons_self ..)) hxs y hy
      · exact ih _ _ (fun p hp => ht p (by simp [hp])) hys y hy

theorem zipLongest_parts {α β : Type} : ∀ (xs : List α) (ys : List β), ∀ p ∈ zipLongest xs ys,
    (∀ x, p.1 = some x → x ∈ xs) ∧ ∀ y, p.2 = some y → y ∈ ys := by
  intro xs
  induction xs with
  | nil =>
    intro ys p hp
    rw [zipLongest] at hp
    obtain ⟨y, hy, rfl⟩ := List.mem_map.1 hp
    exact ⟨by simp, by rintro z ⟨⟩; exact hy⟩
  | cons a xs ih =>
    intro ys p hp
    cases ys with
    | nil =>
      simp only [zipLongest] at hp
      obtain ⟨y, hy, rfl⟩ := List.mem_map.1 hp
      exact ⟨by rintro z ⟨⟩; exact hy, by simp⟩
    | cons b ys =>
      rw [zipLongest] at hp
      rcases List.mem_cons.1 hp with rfl | hp
      · exact ⟨by rintro z ⟨⟩; simp, by rintro z ⟨⟩; simp⟩
      · exact ⟨fun x hx => by simp [(ih ys p hp).1 x hx], fun y hy => by simp [(ih ys p hp).2 y hy]⟩

theorem mem_tokens {aln : List Aln} {a : Aln} (ha : a ∈ aln) {t : Str} (ht : t ∈ a.2.getD []) : t ∈ tokens aln :=
  List.mem_flatMap.2 ⟨a, ha, ht⟩

theorem makeTier_fine {ty : Option Str} {tid : Str} {ra : Option Str} {aln : List Aln} {algn : Option Obj} {t : Obj}
    (hid : XmlChars tid) (hty : ∀ y, ty = some y → XmlChars y) (hra : ∀ r, ra = some r → PlainName r)
    (htok : ∀ t ∈ tokens aln, t ≠ [] ∧ TextOK t) (hal : ∀ u, algn = some u → GoodTier u)
    (h : makeTier ty tid ra aln algn = .ok t) : GoodTier t := by
  have hh := (makeTier_holds h).1
  unfold makeTier at h
  split at h
  · exact tier_fine h hh hid hty .nil (by simp)
  · split at h
    · next r u =>
      simp only [bind, Except.bind] at h
      split at h
      · cases h
      next xs hxs =>
      have hu := hal u rfl
      refine tier_fine h hh hid hty (.one (hra r rfl) (id_chars hu.2.1)) (alnItems_fine hid (hra r rfl) _ _ _ ?_ ?_ hxs)
      · intro p hp x hx
        exact hu.2.2 x ((zipLongest_parts _ _ p hp).1 x hx)
      · intro p hp a ha t ht
        exact htok t (mem_tokens ((zipLongest_parts _ _ p hp).2 a ha) ht)
    · simp only [bind, Except.bind] at h
      split at h
      · cases h
      next xs hxs =>
      exact tier_fine h hh hid hty .nil (plainItems_fine hid _ _ _ (fun a ha t ht => htok t (mem_tokens ha ht)) hxs)

theorem join_ok {ts : List Str} (h : ∀ t ∈ ts, t ≠ [] ∧ TextOK t) (hne : ts ≠ []) : join [' '] ts ≠ [] ∧ TextOK (join [' '] ts) := by
  induction ts with
  | nil => exact absurd rfl hne
  | cons t ts ih =>
    have ht := h t (by simp)
    cases ts with
    | nil => exact ht
    | cons u us =>
      have hu := ih (fun t hh => h t (by simp [hh])) (by simp)
      rw [join]
      refine ⟨by simp [ht.1], XmlChars.app (XmlChars.app ht.2.1 (b := [' ']) (xmlChars_lit _ (by decide))) hu.2.1, ?_⟩
      simp only [List.mem_append, not_or]
      exact ⟨⟨ht.2.2, by decide⟩, hu.2.2⟩

theorem phraseTier_fine {pid : Str} {aln : List Aln} {p : Obj} (hid : XmlChars pid) (htok : ∀ t ∈ tokens aln, t ≠ [] ∧ TextOK t)
    (hne : tokens aln ≠ []) (h : makePhraseTier pid aln = .ok p) : GoodTier p := by
  have hh := makePhraseTier_holds h
  simp only [makePhraseTier, bind, Except.bind] at h
  split at h
  · cases h
  next x hx =>
  refine tier_fine h hh hid (by rintro y ⟨⟩; exact xmlChars_lit _ (by decide)) .nil ?_
  intro y hy
  cases List.mem_singleton.1 hy
  exact item_fine hx hid (join_ok htok hne) .nil

/-- the tiers made so far: all survive, all have different IDs -/
def GoodTiers (ts : List Obj) : Prop := (∀ t ∈ ts, GoodTier t) ∧ (ts.filterMap fun t => t.data.id).Nodup

theorem GoodTiers.snoc {ts : List Obj} {t : Obj} (h : GoodTiers ts) (ht : GoodTier t) (hid : ∀ y ∈ ts, y.data.id ≠ t.data.id) :
    GoodTiers (ts ++ [t]) := by
  refine ⟨?_, ?_⟩
  · intro y hy
    rcases List.mem_append.1 hy with hy | hy
    · exact h.1 y hy
    · cases List.mem_singleton.1 hy; exact ht
  · rw [List.filterMap_append, List.nodup_append]
    refine ⟨h.2, ?_, ?_⟩
    · cases hd : t.data.id <;> simp [hd]
    · intro a ha b hb e
      subst e
      obtain ⟨y, hy, hya⟩ := List.mem_filterMap.1 ha
      obtain ⟨z, hz, hza⟩ := List.mem_filterMap.1 hb
      cases List.mem_singleton.1 hz
      exact hid y hy (by rw [hya, hza])

theorem makeAllTiers_fine {o : Opts} (ho : OptsOK o) : ∀ (fs : List (Py Field)) (prev : Dict Str Obj) (done r : List Obj),
    (∀ f, .ok f ∈ fs → FieldOK o f) → GoodTiers done → (∀ a t, Dict.get? prev a = some t → GoodTier t) →
    makeAllTiers o fs prev done = .ok r → GoodTiers r := by
  intro fs
  induction fs with
  | nil => intro prev done r _ hd _ h; cases h; exact hd
  | cons f fs ih =>
    intro prev done r hf hd hp h
    cases f with
    | error e => cases h
    | ok f =>
      obtain ⟨mkr, aln⟩ := f
      have hfo := hf (mkr, aln) (by simp)
      have hfs : ∀ f, .ok f ∈ fs → FieldOK o f := fun f h => hf f (by simp [h])
      cases hm : Dict.get? o.tierMap mkr with
      | none =>
        simp only [makeAllTiers, hm] at h
        exact ih _ _ _ hfs hd hp h
      | some tid =>
        obtain ⟨prev', done', ty, t, hps, hty, ht, hne, hr⟩ := makeAllTiers_step hm h
        have hstep : GoodTiers done' ∧ ∀ a t, Dict.get? prev' a = some t → GoodTier t := by
          rcases phraseStep_inv hps with ⟨_, rfl, rfl⟩ | ⟨pid, p, hph, hpt, rfl, rfl, hid⟩
          · exact ⟨hd, hp⟩
          · have hg := phraseTier_fine (ho.phrase _ _ hph) hfo.tokens (hfo.phrase tid pid hm hph) hpt
            refine ⟨hd.snoc hg hid, ?_⟩
            intro a u hu
            rw [Dict.get?_set] at hu
            split at hu
            · cases hu; exact hg
            · exact hp a u hu
        have hg : GoodTier t := by
          refine makeTier_fine (ho.tiers _ _ hm) (by rintro y rfl; exact ho.types _ _ hty) ?_ hfo.tokens ?_ ht
          · intro r hr
            unfold alignmentOf at hr
            split at hr
            · next ra aid he => simp only at hr; subst hr; exact ho.refs _ _ _ he
            · cases hr
          · intro u hu
            obtain ⟨a, _, ha⟩ := Option.bind_eq_some_iff.1 hu
            exact hstep.2 a u ha
        refine ih _ _ _ hfs (hstep.1.snoc hg hne) ?_ hr
        intro a u hu
        rw [Dict.get?_set] at hu
        split at hu
        · cases hu; exact hg
        · exact hstep.2 a u hu

theorem igt_fine {o : Opts} (ho : OptsOK o) {k : Str} {r : Record} (hr : RecordOK o k r) {key : Str}
    (hk : Dict.get? r.context k = some (some key)) {x : Obj} (h : makeIgt o key r.data r.context r.fields = .ok (some x)) :
    x.cls = .igt ∧ Fine [] x := by
  obtain ⟨i, ts, hi, hacc, hts, rfl⟩ := makeIgt_inv h
  have hg := makeAllTiers_fine ho _ _ _ _ hr.fields ⟨by simp, by exact List.nodup_nil⟩ (by intro a t h; cases h) hts
  obtain ⟨hw, ha⟩ := igtAttrs_spec o (r.data ++ r.context)
  refine ⟨rfl, .mk hw (by simp) (by simp) (by simp [Cls.hasMd]) (by simp) ?_ (by simp) (fun t h => (hg.1 t h).2.1.1),
    .mk (by rintro j ⟨⟩; exact hacc) (by simp) (by exact List.nodup_nil) hg.2 (by simp) (by simp) (fun t h => (hg.1 t h).2.1.2.1),
    .mk ⟨by simp, by simp, by simp, by simp, by simp, by simp, by simp, ?_, by simp, ?_⟩ (by simp) (fun t h => (hg.1 t h).2.1.2.2.1),
    .mk (by simp) (by simp) (fun t h => (hg.1 t h).2.1.2.2.2)⟩
  · intro t h; rw [(hg.1 t h).1]; rfl
  · rintro j ⟨⟩
    have hc := hr.key key hk
    cases key with
    | nil => cases hi
    | cons c cs =>
      simp only [igtId, Except.ok.injEq] at hi
      subst hi
      split
      · exact hc
      · exact XmlChars.app (a := lit! "igt") (xmlChars_lit _ (by decide)) hc
  · intro a v hav
    obtain ⟨pre, m, post, e, hm, _⟩ := (ha a v).1 (Dict.get?_of_mem hw hav)
    exact ⟨hr.values m v (by rw [e]; simp), .inl (ho.attrs m a hm)⟩

theorem igts_fine {o : Opts} (ho : OptsOK o) {k : Str} : ∀ (rs : List Record) (xs : List Obj), (∀ r ∈ rs, RecordOK o k r) →
    toolboxIgts o k rs = .ok xs → ∀ x ∈ xs, x.cls = .igt ∧ Fine [] x := by
  intro rs
  induction rs with
  | nil => intro xs _ h; cases h; simp
  | cons r rs ih =>
    intro xs hr h
    rw [toolboxIgts] at h
    split at h
    · next key hk =>
      simp only [bind, Except.bind] at h
      split at h
      · cases h
      next x hx =>
      split at h
      · cases h
      next ys hys =>
      cases h
      intro y hy
      rcases List.mem_append.1 hy with hy | hy
      · cases x with
        | none => cases hy
        | some x =>
          cases List.mem_singleton.1 hy
          exact igt_fine ho (hr r (by simp)) hk hx
      · exact ih _ (fun r h => hr r (by simp [h])) hys y hy
    · exact ih _ (fun r h => hr r (by simp [h])) h

/-- the corpus of the imported igts meets the conditions of C40 -/
theorem corpus_fine (o : Opts) (k : Str) (ho : OptsOK o) (rs : List Record) (hr : ∀ r ∈ rs, RecordOK o k r) (xs : List Obj)
    (h : toolboxIgts o k rs = .ok xs) (hd : (xs.map fun x => x.data.id).Nodup) : Fine [] (corpus xs) := by
  have h2 := igts_fine ho rs xs hr h
  have hd' : (xs.filterMap fun x => x.data.id).Nodup := by
    rw [List.nodup_iff_pairwise_ne, List.pairwise_filterMap]
    rw [List.nodup_iff_pairwise_ne, List.pairwise_map] at hd
    refine hd.imp ?_
    intro x y hne a ha b hb e
    exact hne (by rw [ha, hb, e])
  exact ⟨
    (.mk Dict.wf_nil (by simp) (by simp) (by simp [Cls.hasMd]) (by simp) (by intro x hx; rw [(h2 x hx).1]; rfl) (by simp) (fun x hx => (h2 x hx).2.1)),
    (.mk (by simp) (by simp) (by exact List.nodup_nil) hd' (by simp) (by simp) (fun x hx => (h2 x hx).2.2.1)),
    (.mk ⟨by simp, by simp, by simp, by simp, by simp, by simp, by simp, by simp, by simp, by simp⟩ (by simp)
      (fun x hx => (h2 x hx).2.2.2.1)),
    (.mk (by simp) (by simp) (fun x hx => (h2 x hx).2.2.2.2))⟩

/-- **C93** for options and records with legal characters, tokens that are not empty, and keys that
give different IDs: what is imported is written, and reading the file gives the imported corpus, with
every indentation.  Missing: other records, for which it can fail (`C93_refuted`...). -/
theorem C93_partial (o : Opts) (k : Str) (ho : OptsOK o) (rs : List Record) (hr : ∀ r ∈ rs, RecordOK o k r) (xs : List Obj)
    (h : toolboxIgts o k rs = .ok xs) (hd : (xs.map fun x => x.data.id).Nodup) (look : Nat → Nat) (ind : Option Int) :
    ∃ y, writeRead look ind (corpus xs) = .ok y ∧ SameData y (corpus xs) ∧ Obj.eq y (corpus xs) = true := by
  obtain ⟨f1, f2, f3, f4⟩ := corpus_fine o k ho rs hr xs h hd
  exact C40_partial (corpus xs) rfl f1 f2 f3 f4 look ind

end

section
attribute [local instance] asciiUni asciiXml Tbx.asciiLex

/-- the default options meet `OptsOK` -/
theorem defaults_ok : OptsOK defaults := by
  have hv : ∀ {d : Dict Str Str} {P : Str → Prop}, (∀ p ∈ d, P p.2) → ∀ k v, Dict.get? d k = some v → P v :=
    fun h k v hk => h _ (Dict.get?_mem hk)
  have hx : ∀ s : Str, s.all isXmlChar = true → XmlChars s := fun s h => List.all_eq_true.1 h
  refine ⟨fun mkr tid h => ?_, ?_, fun tid ty h => ?_, fun tid ra aid h => ?_, fun mkr a h => ?_⟩
  · have := Dict.get?_mem h
    simp only [defaults, List.mem_cons, List.not_mem_nil, or_false, Prod.mk.injEq] at this
    rcases this with ⟨_, rfl⟩ | ⟨_, rfl⟩ | ⟨_, rfl⟩ | ⟨_, rfl⟩ | ⟨_, rfl⟩ <;> exact hx _ (by decide)
  · rintro w p ⟨⟩; exact hx _ (by decide)
  · have := Dict.get?_mem h
    simp only [defaults, List.mem_cons, List.not_mem_nil, or_false, Prod.mk.injEq, Option.some.injEq] at this
    rcases this with ⟨_, rfl⟩ | ⟨_, rfl⟩ | ⟨_, rfl⟩ | ⟨_, rfl⟩ | ⟨_, rfl⟩ | ⟨_, rfl⟩ <;> exact hx _ (by decide)
  · have := Dict.get?_mem h
    simp only [defaults, List.mem_cons, List.not_mem_nil, or_false, Prod.mk.injEq, Option.some.injEq] at this
    rcases this with ⟨_, rfl, _⟩ | ⟨_, rfl, _⟩ | ⟨_, rfl, _⟩ | ⟨_, rfl, _⟩ | ⟨_, rfl, _⟩ <;> exact ⟨by decide, by decide, by decide, by decide⟩
  · have := Dict.get?_mem h
    simp only [defaults, List.mem_cons, List.not_mem_nil, or_false, Prod.mk.injEq] at this
    obtain ⟨_, rfl⟩ := this
    exact ⟨by decide, by decide, by decide, by decide⟩

/-- a record of one word -/
def oneWord (key : Str) (t : Str) : Record where
  context := [(lit! "\\ref", some key)]
  data := []
  fields := [.ok (lit! "\\t", [(some t, some [t])])]

/-- the hypotheses of `C93_partial` are met -/
theorem oneWord_ok : RecordOK defaults (lit! "\\ref") (oneWord (lit! "7") (lit! "inu")) := by
  have hx : ∀ s : Str, s.all isXmlChar = true → XmlChars s := fun s h => List.all_eq_true.1 h
  refine ⟨?_, ?_, ?_⟩
  · rintro key ⟨⟩; exact hx _ (by decide)
  · intro m v h
    simp only [oneWord, List.nil_append, List.mem_singleton, Prod.mk.injEq, Option.some.injEq] at h
    rw [h.2]; exact hx _ (by decide)
  · intro f hf
    simp only [oneWord, List.mem_singleton, Except.ok.injEq] at hf
    subst hf
    refine ⟨?_, by intro _ _ _ _; decide⟩
    intro t ht
    simp only [tokens, List.flatMap_cons, List.flatMap_nil, Option.getD_some, List.append_nil, List.mem_singleton] at ht
    subst ht
    exact ⟨by decide, hx _ (by decide), by decide⟩

example : ∃ xs y, toolboxIgts defaults (lit! "\\ref") [oneWord (lit! "7") (lit! "inu")] = .ok xs ∧ xs.length = 1 ∧
    writeRead id (some 2) (corpus xs) = .ok y ∧ Obj.eq y (corpus xs) = true := by
  obtain ⟨y, h1, _, h2⟩ := C93_partial defaults (lit! "\\ref") defaults_ok [oneWord (lit! "7") (lit! "inu")]
    (by intro r hr; cases List.mem_singleton.1 hr; exact oneWord_ok) _ rfl (by decide +kernel) id (some 2)
  exact ⟨_, y, rfl, rfl, h1, h2⟩

/-- **C93** refuted: two records with the same key (or with `7` and `igt7`) are both written, and the
file cannot be read. -/
theorem C93_refuted : ∃ r s, ((toolboxIgts defaults (lit! "\\ref") [r, s]).map List.length = .ok 2) ∧ (do
    let xs ← toolboxIgts defaults (lit! "\\ref") [r, s]
    let y ← writeRead id (some 2) (corpus xs)
    return Obj.eq y (corpus xs)) = .error .xigtError :=
  ⟨oneWord (lit! "7") (lit! "a"), oneWord (lit! "igt7") (lit! "b"), by decide +kernel, by decide +kernel⟩

/-- **C93** refuted: an item without text is made for a line without words; its empty text is gone after reading. -/
theorem C93_refuted_empty : ∃ r, (do
    let xs ← toolboxIgts defaults (lit! "\\ref") [r]
    let y ← writeRead id (some 2) (corpus xs)
    return Obj.eq y (corpus xs)) = .ok false :=
  ⟨{ context := [(lit! "\\ref", some (lit! "7"))], data := [], fields := [.ok (lit! "\\t", [(none, none)])] }, by decide +kernel⟩

/-- **C93** refuted: characters that XML does not have are written, and the file cannot be read. -/
theorem C93_refuted_chars : ∃ r, ((toolboxIgts defaults (lit! "\\ref") [r]).map List.length = .ok 1) ∧ (do
    let xs ← toolboxIgts defaults (lit! "\\ref") [r]
    let y ← writeRead id (some 2) (corpus xs)
    return Obj.eq y (corpus xs)) = .error .parseError :=
  ⟨oneWord (lit! "7") (lit! "a\x01"), by decide +kernel, by decide +kernel⟩

end
end Xigt.Tbx
