import Verif.Path.Examples
import Verif.Igt.RefProps
import Verif.Igt.AncProps
/-
C97: the steps `referent()`, `referrer()`, `value()` and `text()` of paths.
-/
set_option linter.unusedSectionVars false

namespace Xigt.XP
section
variable [Uni]

/-! ### Specification -/

/-- the object of an entry with the objects around it -/
def nodeOf (igt : Obj) (up : List Obj) (e : Entry) : PV :=
  match e.tier with
  | none => .node e.obj (igt :: up)
  | some t => .node e.obj (t :: igt :: up)

/-- `v` is the tier or item with an ID, None if there is none -/
def RefObj (igt : Obj) (up : List Obj) (i : Str) (v : PV) : Prop :=
  (∃ lv, ∃ e ∈ levelEntries igt lv, e.id = some i ∧ v = nodeOf igt up e) ∨
  ((∀ lv, ∀ e ∈ levelEntries igt lv, e.id ≠ some i) ∧ v = .none)

/-- the item index has exactly the items of the igt -/
structure Fresh (c : PCfg) (igt : Obj) : Prop where
  indexed : Indexed { igt := igt, itemdict := c.index igt }
  exact : ∀ i e, igtGetItem { igt := igt, itemdict := c.index igt } (some i) = some e → e ∈ itemEntries igt ∧ e.id = some i

/-- the reference attributes that are followed: the one given, otherwise those allowed for the object -/
def refsFor (c : PCfg) (arg : Option Str) (e : Entry) : List Str :=
  match arg with
  | some a => [a]
  | none => c.allowed e

/-- the step as it is written: `f()` or `f("arg")` -/
def fnPath (f : Str) (arg : Option Str) : Str :=
  f ++ lit! "(" ++ (match arg with
    | some a => quote a
    | none => []) ++ lit! ")"

/-- the reference attribute of an entry mentions an ID -/
def mentions (c : PCfg) (arg : Option Str) (i ra : Str) (e : Entry) : Bool :=
  e.id.isSome && decide (ra ∈ refsFor c arg e) && decide (i ∈ ids (attr0 e.obj ra))

/-! ### Proofs -/

theorem strLe_lt : ∀ (a b : Str), strLe a b = true → a = b ∨ a < b := by
  intro a
  induction a with
  | nil =>
    intro b _
    cases b with
    | nil => exact .inl rfl
    | cons b bs => exact .inr (List.nil_lt_cons ..)
  | cons x xs ih =>
    intro b h
    cases b with
    | nil => simp [strLe] at h
    | cons y ys =>
      rw [strLe] at h
      split at h
      · rename_i e
        subst e
        rcases ih ys h with rfl | h
        · exact .inl rfl
        · exact .inr (List.cons_lt_cons_iff.2 (.inr ⟨rfl, h⟩))
      · exact .inr (List.cons_lt_cons_iff.2 (.inl (show x.toNat < y.toNat by simpa using h)))

theorem strLe_total : ∀ (a b : Str), strLe a b = false → b < a := by
  intro a
  induction a with
  | nil => intro b h; simp [strLe] at h
  | cons x xs ih =>
    intro b h
    cases b with
    | nil => exact List.nil_lt_cons ..
    | cons y ys =>
      rw [strLe] at h
      split at h
      · rename_i e
        subst e
        exact List.cons_lt_cons_iff.2 (.inr ⟨rfl, ih ys h⟩)
      · rename_i hne
        refine List.cons_lt_cons_iff.2 (.inl ?_)
        have h1 : ¬ x.toNat < y.toNat := by simpa using h
        have h2 : x.toNat ≠ y.toNat := fun e => hne (Char.toNat_inj.1 e)
        have h3 : y.toNat < x.toNat := by omega
        exact h3

theorem insKey_perm (p : Str × List Str) (l : Dict Str (List Str)) : (insKey p l).Perm (p :: l) := by
  induction l with
  | nil => exact List.Perm.refl _
  | cons q l ih =>
    rw [insKey]
    split
    · exact List.Perm.refl _
    · exact (List.Perm.cons q ih).trans (List.Perm.swap p q l)

theorem sortItems_perm (d : Dict Str (List Str)) : (sortItems d).Perm d := by
  rw [sortItems]
  induction d with
  | nil => exact List.Perm.refl _
  | cons p d ih => exact (insKey_perm _ _).trans (List.Perm.cons p ih)

theorem insKey_sorted (p : Str × List Str) (l : Dict Str (List Str)) (hp : ∀ q ∈ l, q.1 ≠ p.1)
    (h : (l.map Prod.fst).Pairwise (· < ·)) : ((insKey p l).map Prod.fst).Pairwise (· < ·) := by
  induction l with
  | nil => simp [insKey]
  | cons q l ih =>
    rw [List.map_cons, List.pairwise_cons] at h
    rw [insKey]
    split
    · rename_i hle
      rw [List.map_cons, List.pairwise_cons, List.map_cons, List.pairwise_cons]
      have h1 : p.1 < q.1 := by
        rcases strLe_lt _ _ hle with e | e
        · exact absurd e.symm (hp q (List.mem_cons_self ..))
        · exact e
      refine ⟨?_, h⟩
      intro a ha
      rcases List.mem_cons.1 ha with rfl | ha
      · exact h1
      · exact List.lt_trans h1 (h.1 a ha)
    · rename_i hle
      rw [List.map_cons, List.pairwise_cons]
      refine ⟨?_, ih (fun r hr => hp r (List.mem_cons_of_mem _ hr)) h.2⟩
      intro a ha
      have : a ∈ (p :: l).map Prod.fst := ((insKey_perm p l).map Prod.fst).mem_iff.1 ha
      rw [List.map_cons, List.mem_cons] at this
      rcases this with rfl | this
      · exact strLe_total _ _ (by simpa using hle)
      · exact h.1 a this

theorem sortItems_sorted (d : Dict Str (List Str)) (h : d.WF) : ((sortItems d).map Prod.fst).Pairwise (· < ·) := by
  induction d with
  | nil => simp [sortItems]
  | cons p d ih =>
    have h' : (p.1 :: Dict.keys d).Nodup := h
    rw [List.nodup_cons] at h'
    rw [sortItems, List.foldr_cons, ← sortItems]
    refine insKey_sorted _ _ ?_ (ih h'.2)
    intro q hq e
    exact h'.1 (e ▸ List.mem_map.2 ⟨q, (sortItems_perm d).mem_iff.1 hq, rfl⟩)

theorem mem_keys {d : Dict Str (List Str)} {k} : k ∈ d.keys ↔ Dict.get? d k ≠ none := by
  rw [ne_eq, Dict.get?_eq_none_iff, Decidable.not_not]

/-- what the sorted items are, by key -/
theorem sortItems_flat (d : Dict Str (List Str)) (h : d.WF) (f : Str → PV) :
    ∃ ras : List Str, ras.Pairwise (· < ·) ∧ (∀ ra, ra ∈ ras ↔ ra ∈ d.keys) ∧
      ((sortItems d).flatMap fun p => p.2.map f) = (ras.map fun ra => (listed d ra).map f).flatten := by
  refine ⟨(sortItems d).map Prod.fst, sortItems_sorted d h, ?_, ?_⟩
  · intro ra
    exact ((sortItems_perm d).map Prod.fst).mem_iff
  · rw [List.map_map, List.flatMap_def]
    congr 1
    refine List.map_congr_left fun p hp => ?_
    have : (p.1, p.2) ∈ d := (sortItems_perm d).mem_iff.1 hp
    show p.2.map f = (listed d p.1).map f
    rw [listed, Dict.get?_of_mem h this]; rfl

theorem wf_attrs (i : Str) (o : Obj) (oid : Str) (ras : List Str) : ∀ (res : Dict Str (List Str)), res.WF →
    (ras.foldl (referrersAttr i o oid) res).WF := by
  induction ras with
  | nil => intro res h; exact h
  | cons r ras ih => intro res h; exact ih _ (h.set _ _)

theorem wf_referrers {allowed : Entry → List Str} {st : IgtState} {i refattrs m}
    (h : referrers allowed st i refattrs = .ok m) : m.WF := by
  have hi : (referrersInit refattrs).WF := by
    cases refattrs with
    | none => exact Dict.wf_nil
    | some ras => exact wf_foldl_set (fun ra => ra) (fun _ => []) ras [] Dict.wf_nil
  have ho : ∀ (es : List Entry) (res : Dict Str (List Str)), res.WF → (es.foldl (referrersObj allowed i refattrs) res).WF := by
    intro es
    induction es with
    | nil => intro res h; exact h
    | cons e es ih =>
      intro res h
      refine ih _ ?_
      rw [referrersObj]
      split
      · exact h
      · exact wf_attrs _ _ _ _ _ h
  rw [referrers] at h
  split at h
  · cases h; exact ho _ _ hi
  · split at h
    · cases h
    · cases h; exact ho _ _ hi
  · cases h

theorem levelIds_mem {igt : Obj} {lv} {e : Entry} (he : e ∈ levelEntries igt lv) {i} (hi : e.id = some i) :
    i ∈ levelIds igt lv := List.mem_filterMap.2 ⟨e, he, hi⟩

theorem anyV_level {c : PCfg} {igt : Obj} {up} (h : IgtOK igt) (hx : Fresh c igt) {lv} {e : Entry}
    (he : e ∈ levelEntries igt lv) {i} (hi : e.id = some i) : anyV c igt up i = nodeOf igt up e := by
  rw [anyV, getAny_level (st := { igt := igt, itemdict := c.index igt }) h hx.indexed he hi]
  obtain ⟨t, o⟩ := e
  cases t <;> rfl

theorem anyV_ref {c : PCfg} {igt : Obj} {up} (h : IgtOK igt) (hx : Fresh c igt) {i} (ha : idAccepted i = true) :
    RefObj igt up i (anyV c igt up i) := by
  by_cases hm : ∃ lv, ∃ e ∈ levelEntries igt lv, e.id = some i
  · obtain ⟨lv, e, he, hi⟩ := hm
    exact .inl ⟨lv, e, he, hi, anyV_level h hx he hi⟩
  · have hm' : ∀ lv, ∀ e ∈ levelEntries igt lv, e.id ≠ some i := fun lv e he hi => hm ⟨lv, e, he, hi⟩
    refine .inr ⟨hm', ?_⟩
    have h1 : contGet igt.kids i = none := contGet_none ha fun t ht hti =>
      hm' .tiers ⟨none, t⟩ (mem_tierEntries.2 ⟨rfl, ht⟩) hti
    rw [anyV, getAny, h1]
    cases hg : igtGetItem { igt := igt, itemdict := c.index igt } (some i) with
    | none => rfl
    | some e => exact absurd (hx.exact i e hg).2 (hm' .items e (hx.exact i e hg).1)

/-- an entry of an igt is a tier or an item -/
theorem level_cls {igt : Obj} (hw : igt.WF) (hc : igt.cls = .igt) {lv} {e : Entry} (he : e ∈ levelEntries igt lv) :
    (e.tier = none ∧ e.obj.cls = .tier) ∨ (∃ t, e.tier = some t ∧ e.obj.cls = .item) := by
  obtain ⟨d, md, kids⟩ := igt
  cases hw with
  | mk _ _ _ _ _ hk _ hkw =>
    have hc' : d.cls = .igt := hc
    rw [hc'] at hk
    cases lv with
    | tiers =>
      obtain ⟨h1, h2⟩ := mem_tierEntries.1 he
      exact .inl ⟨h1, by simpa [Cls.contained] using hk _ h2⟩
    | items =>
      obtain ⟨t, ht, h1, h2⟩ := mem_itemEntries.1 he
      have tw := hkw t ht
      have tc : t.cls = .tier := by simpa [Cls.contained] using hk _ ht
      obtain ⟨td, tmd, tk⟩ := t
      cases tw with
      | mk _ _ _ _ _ tk' _ _ =>
        have tc' : td.cls = .tier := tc
        rw [tc'] at tk'
        exact .inr ⟨_, h1, by simpa [Cls.contained] using tk' _ h2⟩

theorem refsOf_entry {c : PCfg} {b : Bool} {igt : Obj} {up ras} (hw : igt.WF) (hc : igt.cls = .igt) {lv} {e : Entry}
    (he : e ∈ levelEntries igt lv) : refsOf c b (nodeOf igt up e) ras = findRefs c b igt up e.id ras := by
  obtain ⟨t, o⟩ := e
  rcases level_cls hw hc he with ⟨h1, h2⟩ | ⟨t', h1, h2⟩
  · simp only at h1 h2
    subst h1
    simp only [nodeOf, refsOf, h2]
  · simp only at h1 h2
    subst h1
    simp only [nodeOf, refsOf, h2]

theorem fn_step {c : PCfg} {v : PV} {f : Str} {arg : Option Str} (hf : f ∈ keywords) (ha : ∀ a, arg = some a → Quotable a) :
    findall c v (fnPath f arg) = function c v f (match arg with
      | some a => [quote a]
      | none => []) := by
  cases arg with
  | none =>
    have hok : (PPath.rel (.last (.fn f none) .nil)).Ok := ⟨⟨hf, trivial⟩, rfl, rfl⟩
    have e : fnPath f none = (PPath.rel (.last (.fn f none) .nil)).render := by
      simp [fnPath, PPath.render, PPath.toks, PSteps.toks, PNode.toks, PPreds.toks]
    rw [e, findall_render hok, denPath]
    simp only [denSteps, denNode, denPreds, Gen.bind, Gen.bindL]
    cases function c v f [] <;> simp [Gen.ofPy, Gen.fail, Gen.toList]
  | some a =>
    have hok : (PPath.rel (.last (.fn f (some a)) .nil)).Ok := ⟨⟨⟨hf, ha a rfl⟩, trivial⟩, rfl, rfl⟩
    have e : fnPath f (some a) = (PPath.rel (.last (.fn f (some a)) .nil)).render := by
      simp [fnPath, PPath.render, PPath.toks, PSteps.toks, PNode.toks, PPreds.toks]
    rw [e, findall_render hok, denPath]
    simp only [denSteps, denNode, denPreds, Gen.bind, Gen.bindL]
    cases function c v f [quote a] <;> simp [Gen.ofPy, Gen.fail, Gen.toList]

theorem ref_step {c : PCfg} {igt : Obj} {up} {arg : Option Str} (ha : ∀ a, arg = some a → Quotable a) {b : Bool}
    (hw : igt.WF) (hc : igt.cls = .igt) {lv} {e : Entry} (he : e ∈ levelEntries igt lv) :
    findall c (nodeOf igt up e) (fnPath (if b then lit! "referrer" else lit! "referent") arg) =
      findRefs c b igt up e.id (arg.map fun a => [a]) := by
  rw [fn_step (by cases b <;> decide) ha, function.eq_def]
  have h1 : ¬ (if b then lit! "referrer" else lit! "referent") = lit! "text" := by cases b <;> decide
  have h2 : ¬ (if b then lit! "referrer" else lit! "referent") = lit! "value" := by cases b <;> decide
  have h3 : decide ((if b then lit! "referrer" else lit! "referent") ≠ lit! "referent") = b := by cases b <;> decide
  rw [if_neg h1, if_neg h2, h3, refsOf_entry hw hc he]
  cases arg with
  | none => rfl
  | some a =>
    have hq : quote a ≠ lit! "," := by simp [quote]
    rw [if_neg (by simp)]
    simp [hq, strip_quoted (ha a rfl)]

theorem getD_refs (c : PCfg) (arg : Option Str) (e : Entry) : (arg.map fun a => [a]).getD (c.allowed e) = refsFor c arg e := by
  cases arg <;> rfl

/-- **C97** (partial), `referent()`: for each reference attribute of the object, in ascending order, it finds the
tiers or items with the IDs mentioned, in the order they are mentioned, None for an ID that nothing has.

Missing: several reference attributes, of which only the first is recognised (`C97_refuted`). -/
theorem C97_referent_partial (c : PCfg) (igt : Obj) (up : List Obj) (hw : igt.WF) (hc : igt.cls = .igt) (hok : IgtOK igt)
    (hx : Fresh c igt) (lv : Level) (e : Entry) (he : e ∈ levelEntries igt lv) (i : Str) (hi : e.id = some i)
    (arg : Option Str) (ha : ∀ a, arg = some a → Quotable a) :
    ∃ (ras : List Str) (ls : List (List PV)), ras.Pairwise (· < ·) ∧ (∀ ra, ra ∈ ras ↔ ra ∈ refsFor c arg e) ∧
      All2 (fun ra vs => All2 (RefObj igt up) (ids (attr0 e.obj ra)) vs) ras ls ∧
      findall c (nodeOf igt up e) (fnPath (lit! "referent") arg) = .ok ls.flatten := by
  have h := ref_step (c := c) (up := up) ha (b := false) hw hc he
  simp only [Bool.false_eq_true, if_false] at h
  rw [h, findRefs.eq_def, hi]
  simp only [Bool.false_eq_true, if_false, referents,
    getAny_level (st := { igt := igt, itemdict := c.index igt }) hok hx.indexed he hi, bind, Except.bind, getD_refs]
  obtain ⟨ras, r1, r2, r3⟩ := sortItems_flat (raMap e.obj (refsFor c arg e)) (wf_raMap _ _) (anyV c igt up)
  have r2' : ∀ ra, ra ∈ ras ↔ ra ∈ refsFor c arg e := by
    intro ra
    rw [r2, mem_keys, get?_raMap]
    by_cases hm : ra ∈ refsFor c arg e <;> simp [hm]
  refine ⟨ras, _, r1, r2', ?_, by rw [r3]⟩
  have key : ∀ l : List Str, (∀ ra ∈ l, ra ∈ refsFor c arg e) →
      All2 (fun ra vs => All2 (RefObj igt up) (ids (attr0 e.obj ra)) vs) l
        (l.map fun ra => (listed (raMap e.obj (refsFor c arg e)) ra).map (anyV c igt up)) := by
    intro l
    induction l with
    | nil => intro _; exact .nil
    | cons ra l ih =>
      intro hl
      refine .cons ?_ (ih fun r hr => hl r (List.mem_cons_of_mem _ hr))
      show All2 _ _ ((listed (raMap e.obj (refsFor c arg e)) ra).map (anyV c igt up))
      rw [listed_raMap, if_pos (hl ra (List.mem_cons_self ..))]
      have hv : ∀ j ∈ ids (attr0 e.obj ra), idAccepted j = true := fun j hj => ids_accepted hj
      generalize ids (attr0 e.obj ra) = js at hv
      induction js with
      | nil => exact .nil
      | cons j js ih2 =>
        exact .cons (anyV_ref hok hx (hv j (List.mem_cons_self ..))) (ih2 fun k hk => hv k (List.mem_cons_of_mem _ hk))
  exact key ras fun ra hra => (r2' ra).1 hra

/-- **C97** (partial), `referrer()`: for each reference attribute in ascending order, it finds the tiers of the igt
(for a tier) or its items (for an item) that mention the object in it, in the order of the document.

Missing: as in `C97_referent_partial`. -/
theorem C97_referrer_partial (c : PCfg) (igt : Obj) (up : List Obj) (hw : igt.WF) (hc : igt.cls = .igt) (hok : IgtOK igt)
    (hx : Fresh c igt) (hn : ∀ e, (c.allowed e).Nodup) (lv : Level) (e : Entry) (he : e ∈ levelEntries igt lv) (i : Str)
    (hi : e.id = some i) (arg : Option Str) (ha : ∀ a, arg = some a → Quotable a) :
    ∃ ras : List Str, ras.Pairwise (· < ·) ∧ (∀ ra, ∀ x ∈ levelEntries igt lv, mentions c arg i ra x = true → ra ∈ ras) ∧
      findall c (nodeOf igt up e) (fnPath (lit! "referrer") arg) =
        .ok (ras.flatMap fun ra => ((levelEntries igt lv).filter (mentions c arg i ra)).map (nodeOf igt up)) := by
  have h := ref_step (c := c) (up := up) ha (b := true) hw hc he
  simp only [if_true] at h
  rw [h, findRefs.eq_def, hi]
  have hn' : ∀ e, ((arg.map fun a => [a]).getD (c.allowed e)).Nodup := by
    intro e; rw [getD_refs]; cases arg with
    | none => exact hn e
    | some a => simp [refsFor]
  obtain ⟨m, h1, h2⟩ := referrers_level (allowed := c.allowed) (st := { igt := igt, itemdict := c.index igt }) hok hx.indexed
    (levelIds_mem he hi) (arg.map fun a => [a]) hn'
  simp only [if_true, h1, bind, Except.bind]
  obtain ⟨ras, r1, r2, r3⟩ := sortItems_flat m (wf_referrers h1) (anyV c igt up)
  have h2' : ∀ ra, (listed m ra).map (anyV c igt up) = ((levelEntries igt lv).filter (mentions c arg i ra)).map (nodeOf igt up) := by
    intro ra
    rw [h2 ra]
    have hl : ∀ x ∈ levelEntries igt lv, ∀ j, x.id = some j → anyV c igt up j = nodeOf igt up x := fun x hx' j hj =>
      anyV_level hok hx hx' hj
    simp only [getD_refs]
    generalize levelEntries igt lv = l at hl
    induction l with
    | nil => rfl
    | cons x l ih =>
      have ih := ih fun y hy => hl y (List.mem_cons_of_mem _ hy)
      rw [List.filterMap_cons, List.filter_cons]
      cases hxi : x.id with
      | none => simp [mentions, hxi, ih]
      | some j =>
        by_cases hm : ra ∈ refsFor c arg x ∧ i ∈ ids (attr0 x.obj ra)
        · simp [mentions, hxi, hm, ih, hl x (List.mem_cons_self ..) j hxi]
        · have : mentions c arg i ra x = false := by
            simp only [mentions, hxi, Option.isSome_some, Bool.true_and]
            cases hb : (decide (ra ∈ refsFor c arg x) && decide (i ∈ ids (attr0 x.obj ra))) with
            | false => rfl
            | true => simp at hb; exact absurd hb hm
          simp [this, hm, ih]
  refine ⟨ras, r1, ?_, ?_⟩
  · intro ra x hx' hm
    rw [r2]
    have h3 := h2' ra
    have h4 : listed m ra ≠ [] := by
      intro e0
      rw [e0] at h3
      have : x ∈ (levelEntries igt lv).filter (mentions c arg i ra) := List.mem_filter.2 ⟨hx', hm⟩
      have h5 := (List.map_eq_nil_iff.1 h3.symm)
      rw [h5] at this; cases this
    rw [mem_keys]
    intro e0
    rw [listed, e0] at h4
    exact h4 rfl
  · rw [r3, List.flatMap_def]
    congr 2
    exact List.map_congr_left fun ra _ => h2' ra

/-- **C97**, `text()` and `value()` of an item: its text, and its value as computed from its references -/
theorem C97_item (c : PCfg) (x : Obj) (up : List Obj) (hx : x.cls = .item) :
    findall c (.node x up) (lit! "text()") = .ok [.ofOpt x.data.text] ∧
    findall c (.node x up) (lit! "value()") = (value c.depth up[1]? up[0]? x).map fun s => [.ofOpt s] := by
  have h1 := fn_step (c := c) (v := .node x up) (f := lit! "text") (arg := none) (by decide) (by simp)
  have h2 := fn_step (c := c) (v := .node x up) (f := lit! "value") (arg := none) (by decide) (by simp)
  refine ⟨Eq.trans h1 ?_, Eq.trans h2 ?_⟩
  · rw [function, if_pos rfl]
    simp [hx, Cls.hasText]
  · rw [function, if_neg (by decide), if_pos rfl]
    simp [hx]

/-- the index of an igt as the constructor makes it -/
theorem fresh_new {c : PCfg} {igt : Obj} (h : IgtOK igt) (hc : c.index igt = refreshItems [] (itemNodes igt)) : Fresh c igt := by
  have e : (⟨igt, c.index igt, [], []⟩ : IgtState).itemdict = (newIgt c.allowed igt).itemdict := by
    rw [hc]; rfl
  have g : ∀ j, igtGetItem { igt := igt, itemdict := c.index igt } j = igtGetItem (newIgt c.allowed igt) j := by
    intro j; rw [igtGetItem, igtGetItem, ← e]
  constructor
  · intro x hx i hi
    rw [g]
    exact refresh_indexed c.allowed { igt := igt } h.items x hx i hi
  · intro i x hx
    rw [g, newIgt, get?_refreshItems] at hx
    cases hf : (itemEntries igt).reverse.find? (fun e => decide (e.id = some i)) with
    | none => rw [hf] at hx; simp [igtGetItem, Dict.get?] at hx
    | some y =>
      rw [hf] at hx
      cases hx
      exact ⟨List.mem_reverse.1 (List.mem_of_find?_eq_some hf), by simpa using List.find?_some hf⟩

end

section
attribute [local instance] asciiUni

/-- an igt with three tiers -/
def refIgt : Obj := .mk { cls := .igt, id := some (lit! "i1") } [] [
  .mk { cls := .tier, id := some (lit! "w") } [] [
    .mk { cls := .item, id := some (lit! "w1"), text := some (lit! "ab") } [] [], .mk { cls := .item, id := some (lit! "w2") } [] []],
  .mk { cls := .tier, id := some (lit! "m"), attrs := [(SEGMENTATION, lit! "w")] } [] [
    .mk { cls := .item, id := some (lit! "m1"), attrs := [(SEGMENTATION, lit! "w1[0:1]")] } [] [],
    .mk { cls := .item, id := some (lit! "m2"), attrs := [(SEGMENTATION, lit! "w1[1:2]")] } [] []],
  .mk { cls := .tier, id := some (lit! "g"), attrs := [(ALIGNMENT, lit! "m"), (CONTENT, lit! "w")] } [] [
    .mk { cls := .item, id := some (lit! "g1"), attrs := [(ALIGNMENT, lit! "m2 x m1"), (CONTENT, lit! "w1")] } [] []]]
def refCfg : PCfg := ⟨10, fun _ => [SEGMENTATION, ALIGNMENT, CONTENT], fun igt => refreshItems [] (itemNodes igt)⟩
def refTier : Obj := refIgt.kids[2]
def refItem : Obj := refTier.kids[0]

theorem refIgt_ok : IgtOK refIgt := by
  constructor
  · decide +kernel
  · intro e he i hi
    have : ((tierEntries refIgt ++ itemEntries refIgt).filterMap Entry.id).all idAccepted = true := by decide +kernel
    exact List.all_eq_true.1 this i (List.mem_filterMap.2 ⟨e, he, hi⟩)
example : refIgt.cls = .igt ∧ Fresh refCfg refIgt := ⟨rfl, fresh_new refIgt_ok rfl⟩
theorem refIgt_wf : refIgt.WF := by
  have item : ∀ d : Data, d.cls = .item → d.attrs.WF → d.name = none → (Obj.mk d [] []).WF := fun d hd h1 h2 =>
    .mk h1 (by simp [hd, Cls.hasText]) (by simp [hd, h2]) (fun _ => rfl) (by simp) (by simp) (by simp) (by simp)
  have tier : ∀ d : Data, d.cls = .tier → d.attrs.WF → d.name = none → d.text = none → ∀ l : List Obj,
      (∀ x ∈ l, x.cls = .item ∧ x.WF) → (Obj.mk d [] l).WF := fun d hd h1 h2 h3 l hl =>
    .mk h1 (fun _ => h3) (by simp [hd, h2]) (fun _ => rfl) (by simp) (fun x hx => by rw [(hl x hx).1, hd]; rfl) (by simp)
      (fun x hx => (hl x hx).2)
  refine .mk (by unfold Dict.WF; decide) (fun _ => rfl) (by simp) (fun _ => rfl) (by simp) ?_ (by simp) ?_
  · intro x hx
    simp only [List.mem_cons, List.not_mem_nil, or_false] at hx
    rcases hx with rfl | rfl | rfl <;> rfl
  · intro x hx
    simp only [List.mem_cons, List.not_mem_nil, or_false] at hx
    rcases hx with rfl | rfl | rfl <;> refine tier _ rfl (by unfold Dict.WF; decide) rfl rfl _ ?_ <;> intro y hy <;>
      simp only [List.mem_cons, List.not_mem_nil, or_false] at hy
    · rcases hy with rfl | rfl <;> exact ⟨rfl, item _ rfl (by unfold Dict.WF; decide) rfl⟩
    · rcases hy with rfl | rfl <;> exact ⟨rfl, item _ rfl (by unfold Dict.WF; decide) rfl⟩
    · subst hy; exact ⟨rfl, item _ rfl (by unfold Dict.WF; decide) rfl⟩

example : (findall refCfg (.node refItem [refTier, refIgt]) (lit! "referent()")).map (fun l => l.map label) =
    .ok [(lit! "node", lit! "m2"), (lit! "None", []), (lit! "node", lit! "m1"), (lit! "node", lit! "w1")] := by decide +kernel
example : (findall refCfg (.node refItem [refTier, refIgt]) (lit! "referent(\"content\")")).map (fun l => l.map label) =
    .ok [(lit! "node", lit! "w1")] := by decide +kernel
example : (findall refCfg (.node refIgt.kids[0] [refIgt]) (lit! "referrer()")).map (fun l => l.map label) =
    .ok [(lit! "node", lit! "g"), (lit! "node", lit! "m")] := by decide +kernel

/-- **C97** refuted: of several reference attributes only the first counts, as the comma and what follows are taken for a name. -/
theorem C97_refuted : (findall refCfg (.node refItem [refTier, refIgt]) (lit! "referent(\"alignment\",\"content\")")).map (fun l => l.map label) =
      .ok [(lit! "node", lit! "m2"), (lit! "None", []), (lit! "node", lit! "m1")] ∧
    (findall refCfg (.node refItem [refTier, refIgt]) (lit! "referent(\"content\")")).map (fun l => l.map label) =
      .ok [(lit! "node", lit! "w1")] := by
  constructor <;> decide +kernel

end
end Xigt.XP
