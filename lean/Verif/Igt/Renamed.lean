import Verif.Igt.Same
import Verif.Ref.Props
import Verif.Container.Lemmas
/- C142: names do not matter: when the IDs in an igt are replaced by others, also in references, everything else stays. -/

set_option linter.unusedSectionVars false

namespace Xigt

section
variable [Uni]

/-! ### Spec -/

/-- different IDs for different IDs -/
structure Renames (f : Str → Str) : Prop where
  ok : ∀ i, IdOK i → IdOK (f i)
  inj : ∀ i j, IdOK i → IdOK j → f i = f j → i = j

/-- an expression with other IDs -/
def Sel.rename (f : Str → Str) (s : Sel) : Sel := { s with id := f s.id }
def Expr.rename (f : Str → Str) (e : Expr) : Expr := ⟨e.head.rename f, e.tail.map fun p => (p.1, p.2.rename f)⟩

/-- a reference of an item, before and after: a well-formed expression with other IDs -/
def RefRn (f : Str → Str) (v v' : Str) : Prop := ∃ e : Expr, e.Simple ∧ v = e.render ∧ v' = (e.rename f).render

/-- a reference of a tier: one ID -/
def IdRn (f : Str → Str) (v v' : Str) : Prop := IdOK v ∧ v' = f v

/-- both or none -/
def Opt2 {α β : Type} (R : α → β → Prop) : Option α → Option β → Prop
  | none, none => True
  | some a, some b => R a b
  | _, _ => False

/-- attributes of which those in `refs` are references -/
def AttrsRn (refs : List Str) (R : Str → Str → Prop) (a b : Dict Str Str) : Prop :=
  ∀ k, Opt2 (fun v v' => (k ∈ refs → R v v') ∧ (k ∉ refs → v = v')) (Dict.get? a k) (Dict.get? b k)

/-- an object with another ID, references `R` to others, and otherwise the same type, text and attributes -/
structure Rn (f : Str → Str) (refs : List Str) (R : Str → Str → Prop) (x y : Obj) : Prop where
  ok : ∀ i, x.data.id = some i → IdOK i
  id : y.data.id = x.data.id.map f
  text : y.data.text = x.data.text
  type : y.data.type = x.data.type
  attrs : AttrsRn refs R x.data.attrs y.data.attrs

def ItemRn (f : Str → Str) (refs : List Str) : Obj → Obj → Prop := Rn f refs (RefRn f)
def TierRn (f : Str → Str) (refs : List Str) (x y : Obj) : Prop := Rn f refs (IdRn f) x y ∧ Pairs2 (ItemRn f refs) x.kids y.kids
/-- the igt after renaming, tier by tier and item by item -/
def IgtRn (f : Str → Str) (refs : List Str) (x y : Obj) : Prop := Pairs2 (TierRn f refs) x.kids y.kids

/-- a result with other IDs: attributes with lists of IDs -/
def rnMap (f : Str → Str) (m : Dict Str (List Str)) : Dict Str (List Str) := m.map fun p => (p.1, p.2.map f)

/-! ### Expressions -/

variable {f : Str → Str}

theorem Sel.rename_ok (hf : Renames f) {s : Sel} (h : s.OK) : (s.rename f).OK := ⟨hf.ok _ h.1, h.2⟩

theorem Expr.rename_simple (hf : Renames f) {e : Expr} (h : e.Simple) : (e.rename f).Simple := by
  refine ⟨Sel.rename_ok hf h.1, fun p hp => ?_⟩
  obtain ⟨q, hq, rfl⟩ := List.mem_map.1 hp
  exact ⟨(h.2 q hq).1, Sel.rename_ok hf (h.2 q hq).2⟩

theorem Expr.rename_ids (e : Expr) : (e.rename f).ids = e.ids.map f := by
  simp [Expr.ids, Expr.sels, Expr.rename, Sel.rename]

theorem simple_ids {e : Expr} (h : e.Simple) : Xigt.ids e.render = e.ids := by
  refine C13_ids_of_expression e ⟨h.1, fun p hp => ⟨?_, (h.2 p hp).2⟩⟩
  obtain ⟨⟨d, hd, h1⟩, -⟩ := h.2 p hp
  rw [hd]
  refine ⟨⟨d, [], rfl, h1.1⟩, fun c hc => ?_⟩
  rw [List.mem_singleton] at hc
  rw [hc, letter_eq]
  exact delim_no_letter h1

theorem RefRn.ids (hf : Renames f) {v v' : Str} (h : RefRn f v v') : Xigt.ids v' = (Xigt.ids v).map f := by
  obtain ⟨e, he, rfl, rfl⟩ := h
  rw [simple_ids (Expr.rename_simple hf he), simple_ids he, Expr.rename_ids]

theorem IdRn.ref {v v' : Str} (h : IdRn f v v') : RefRn f v v' := by
  obtain ⟨h, rfl⟩ := h
  refine ⟨⟨⟨v, none⟩, []⟩, ⟨⟨h, fun r hr => by cases hr⟩, fun p hp => by cases hp⟩, ?_, ?_⟩ <;> simp [Expr.render, Sel.render, Sel.rangeStr, Expr.rename, Sel.rename]

theorem Sel.denote_rename {get get' : Str → Option (Py (Option Str))} {s : Sel} (h : get' (f s.id) = get s.id) :
    (s.rename f).denote get' = s.denote get := by
  unfold Sel.denote
  rw [show (s.rename f).id = f s.id from rfl, h]
  rfl

theorem denoteTail_rename {get get' : Str → Option (Py (Option Str))} : ∀ {l : List (Str × Sel)}, (∀ p ∈ l, get' (f p.2.id) = get p.2.id) →
    denoteTail get' (l.map fun p => (p.1, p.2.rename f)) = denoteTail get l := by
  intro l
  induction l with
  | nil => intro _; rfl
  | cons p l ih =>
    intro h
    rw [List.map_cons, denoteTail, denoteTail, Sel.denote_rename (h p (by simp)), ih fun q hq => h q (by simp [hq])]

theorem resolve_rename (hf : Renames f) {get get' : Str → Option (Py (Option Str))} (h : ∀ i, IdOK i → get' (f i) = get i) {v v' : Str}
    (hr : RefRn f v v') : resolve get' v' = resolve get v := by
  obtain ⟨e, he, rfl, rfl⟩ := hr
  rw [resolve_render _ he, resolve_render _ (Expr.rename_simple hf he)]
  unfold Expr.denote
  rw [show (e.rename f).head = e.head.rename f from rfl, Sel.denote_rename (h _ he.1.1),
    show (e.rename f).tail = e.tail.map fun p => (p.1, p.2.rename f) from rfl, denoteTail_rename fun p hp => h _ (he.2 p hp).2.1]

/-! ### Looking up -/

variable {refs : List Str}

theorem idOK_accepted {i : Str} (h : IdOK i) : idAccepted i = true := by
  obtain ⟨c, cs, rfl, hc, -⟩ := h
  exact (idAccepted_iff _).2 ⟨c, cs, rfl, hc⟩

theorem Rn.same_id (hf : Renames f) {R : Str → Str → Prop} {x y : Obj} (h : Rn f refs R x y) {s : Str} (hs : IdOK s) :
    y.data.id = some (f s) ↔ x.data.id = some s := by
  rw [h.id]
  cases hx : x.data.id with
  | none => simp
  | some i =>
    simp only [Option.map, Option.some.injEq]
    exact ⟨fun e => hf.inj _ _ (h.ok i hx) hs e, fun e => by rw [e]⟩

theorem find_rn (hf : Renames f) {Q : Obj → Obj → Prop} (hq : ∀ x y, Q x y → ∃ R, Rn f refs R x y) {s : Str} (hs : IdOK s)
    {l l' : List Obj} (h : Pairs2 Q l l') : Opt2 Q (l.find? fun x => decide (x.data.id = some s)) (l'.find? fun x => decide (x.data.id = some (f s))) := by
  induction h with
  | nil => trivial
  | @cons x y l l' hxy _ ih =>
    obtain ⟨R, hR⟩ := hq x y hxy
    have e := hR.same_id hf hs
    rw [List.find?_cons, List.find?_cons]
    by_cases hx : x.data.id = some s
    · simp only [hx, e.2 hx, decide_true]; exact hxy
    · have hy : ¬ y.data.id = some (f s) := fun h' => hx (e.1 h')
      simp only [hx, hy, decide_false]; exact ih

theorem contGet_rn (hf : Renames f) {Q : Obj → Obj → Prop} (hq : ∀ x y, Q x y → ∃ R, Rn f refs R x y) {s : Str} (hs : IdOK s)
    {l l' : List Obj} (h : Pairs2 Q l l') : Opt2 Q (contGet l s) (contGet l' (f s)) := by
  have hp := find_rn hf hq hs h
  unfold contGet
  rw [pyInt_letter (idOK_accepted hs), pyInt_letter (idOK_accepted (hf.ok s hs))]
  revert hp
  cases l.find? fun x => decide (x.data.id = some s) <;> cases l'.find? fun x => decide (x.data.id = some (f s)) <;> exact fun h => h

theorem contItem_rn (hf : Renames f) {Q : Obj → Obj → Prop} (hq : ∀ x y, Q x y → ∃ R, Rn f refs R x y) {s : Str} (hs : IdOK s)
    {l l' : List Obj} (h : Pairs2 Q l l') : (∃ x y, contItem l s = .ok x ∧ contItem l' (f s) = .ok y ∧ Q x y) ∨
      (contItem l s = .error .keyError ∧ contItem l' (f s) = .error .keyError) := by
  have hp := find_rn hf hq hs h
  unfold contItem
  rw [pyInt_letter (idOK_accepted hs), pyInt_letter (idOK_accepted (hf.ok s hs))]
  revert hp
  cases l.find? fun x => decide (x.data.id = some s) <;> cases l'.find? fun x => decide (x.data.id = some (f s)) <;> intro h
  · exact .inr ⟨rfl, rfl⟩
  · exact False.elim h
  · exact False.elim h
  · exact .inl ⟨_, _, rfl, rfl, h⟩

theorem ItemRn.rn (x y : Obj) (h : ItemRn f refs x y) : ∃ R, Rn f refs R x y := ⟨_, h⟩
theorem TierRn.rn (x y : Obj) (h : TierRn f refs x y) : ∃ R, Rn f refs R x y := ⟨_, h.1⟩

/-! ### Values -/

theorem Rn.item (h : Rn f refs R x y) {k : Str} (hk : k ∈ refs) :
    (∃ v v', Dict.getItem x.data.attrs k = .ok v ∧ Dict.getItem y.data.attrs k = .ok v' ∧ R v v') ∨
    (Dict.getItem x.data.attrs k = .error .keyError ∧ Dict.getItem y.data.attrs k = .error .keyError) := by
  have := h.attrs k
  unfold Dict.getItem
  cases h1 : Dict.get? x.data.attrs k <;> cases h2 : Dict.get? y.data.attrs k <;> rw [h1, h2] at this
  · exact .inr ⟨rfl, rfl⟩
  · exact this.elim
  · exact this.elim
  · exact .inl ⟨_, _, rfl, rfl, this.1 hk⟩

theorem Rn.has (h : Rn f refs R x y) (k : Str) : Dict.has y.data.attrs k = Dict.has x.data.attrs k := by
  have := h.attrs k
  unfold Dict.has
  revert this
  cases Dict.get? x.data.attrs k <;> cases Dict.get? y.data.attrs k <;> intro this
  · rfl
  · exact this.elim
  · exact this.elim
  · rfl

theorem resolveRef_rn (hf : Renames f) {val val' : Obj → Obj → Py (Option Str)} {igt igt' tier tier' item item' : Obj}
    (hv : ∀ t t' i i', TierRn f refs t t' → ItemRn f refs i i' → val' t' i' = val t i) (hg : IgtRn f refs igt igt') (ht : TierRn f refs tier tier')
    (hi : ItemRn f refs item item') {ra : Str} (hra : ra ∈ refs) :
    resolveRef val' (some igt') (some tier') item' ra = resolveRef val (some igt) (some tier) item ra := by
  unfold resolveRef
  rcases Rn.item hi hra with ⟨e, e', h1, h2, h3⟩ | ⟨h1, h2⟩ <;> rw [h1, h2]
  · simp only [bind, Except.bind]
    rcases Rn.item ht.1 hra with ⟨t, t', g1, g2, g3, rfl⟩ | ⟨g1, g2⟩ <;> rw [g1, g2]
    simp only
    have hc := contGet_rn hf TierRn.rn g3 hg
    revert hc
    cases contGet igt.kids t <;> cases contGet igt'.kids (f t) <;> intro hc
    · rfl
    · exact hc.elim
    · exact hc.elim
    · rename_i r r'
      refine resolve_rename hf (fun i hok => ?_) h3
      have hd := contGet_rn hf ItemRn.rn hok hc.2
      revert hd
      cases contGet r.kids i <;> cases contGet r'.kids (f i) <;> intro hd
      · rfl
      · exact hd.elim
      · exact hd.elim
      · exact congrArg some (hv _ _ _ _ hc hd)
  · rfl

/-- **C142**, values: each item has the value it had, or raises the exception it raised. -/
theorem C142_value (hf : Renames f) (hc : CONTENT ∈ refs) (hs : SEGMENTATION ∈ refs) (igt igt' : Obj) (hg : IgtRn f refs igt igt') :
    ∀ (n : Nat) (tier tier' item item' : Obj), TierRn f refs tier tier' → ItemRn f refs item item' →
      value n (some igt') (some tier') item' = value n (some igt) (some tier) item := by
  intro n
  induction n with
  | zero => intros; rfl
  | succ n ih =>
    intro tier tier' item item' ht hi
    simp only [value, hi.text]
    cases item.data.text with
    | some t => rfl
    | none =>
      have hr : ∀ ra ∈ refs, resolveRef (fun t i => value n (some igt') (some t) i) (some igt') (some tier') item' ra =
          resolveRef (fun t i => value n (some igt) (some t) i) (some igt) (some tier) item ra := fun ra hra =>
        resolveRef_rn hf (fun t t' i i' h1 h2 => ih t t' i i' h1 h2) hg ht hi hra
      simp only [valueBy, hi.has, hr _ hc, hr _ hs]

/-! ### References -/

theorem attr0_rn (hf : Renames f) {R : Str → Str → Prop} (hR : ∀ v v', R v v' → RefRn f v v') {x y : Obj} (h : Rn f refs R x y) {ra : Str}
    (hra : ra ∈ refs) : ids (attr0 y ra) = (ids (attr0 x ra)).map f := by
  unfold attr0
  have := h.attrs ra
  revert this
  cases Dict.get? x.data.attrs ra <;> cases Dict.get? y.data.attrs ra <;> intro this
  · have e : ids ([] : Str) = [] := ids_of_idSplit .nil
    simp only [Option.getD_none, e, List.map_nil]
  · exact this.elim
  · exact this.elim
  · exact (hR _ _ (this.1 hra)).ids hf

theorem set_rnMap (m : Dict Str (List Str)) (k : Str) (v : List Str) : Dict.set (rnMap f m) k (v.map f) = rnMap f (Dict.set m k v) := by
  unfold rnMap
  induction m with
  | nil => rfl
  | cons p m ih =>
    simp only [List.map_cons, Dict.set]
    split
    · rfl
    · rw [ih]; rfl

theorem get?_rnMap (m : Dict Str (List Str)) (k : Str) : Dict.get? (rnMap f m) k = (Dict.get? m k).map (List.map f) := by
  unfold rnMap
  induction m with
  | nil => rfl
  | cons p m ih =>
    simp only [List.map_cons, Dict.get?]
    split
    · rfl
    · exact ih

theorem raMap_rn (hf : Renames f) {R : Str → Str → Prop} (hR : ∀ v v', R v v' → RefRn f v v') {x y : Obj} (h : Rn f refs R x y) {ras : List Str}
    (hras : ∀ ra ∈ ras, ra ∈ refs) : raMap y ras = rnMap f (raMap x ras) := by
  unfold raMap
  have : ∀ (l : List Str) (m : Dict Str (List Str)), (∀ ra ∈ l, ra ∈ refs) →
      l.foldl (fun m ra => Dict.set m ra (ids (attr0 y ra))) (rnMap f m) = rnMap f (l.foldl (fun m ra => Dict.set m ra (ids (attr0 x ra))) m) := by
    intro l
    induction l with
    | nil => intros; rfl
    | cons ra l ih =>
      intro m hl
      rw [List.foldl_cons, List.foldl_cons, attr0_rn hf hR h (hl ra (by simp)), set_rnMap, ih _ fun r hr => hl r (by simp [hr])]
  exact this ras [] hras

/-- tiers or items with other IDs -/
def EntryRn (f : Str → Str) (refs : List Str) (e e' : Entry) : Prop :=
  Rn f refs (RefRn f) e.obj e'.obj ∧ Opt2 (TierRn f refs) e.tier e'.tier

theorem Rn.mono {R R' : Str → Str → Prop} (hR : ∀ v v', R v v' → R' v v') {x y : Obj} (h : Rn f refs R x y) : Rn f refs R' x y := by
  refine ⟨h.ok, h.id, h.text, h.type, fun k => ?_⟩
  have := h.attrs k
  revert this
  cases Dict.get? x.data.attrs k <;> cases Dict.get? y.data.attrs k <;> intro h
  · trivial
  · exact h.elim
  · exact h.elim
  · exact ⟨fun hk => hR _ _ (h.1 hk), h.2⟩

theorem tierEntries_rn {x y : Obj} (h : IgtRn f refs x y) : Pairs2 (EntryRn f refs) (tierEntries x) (tierEntries y) := by
  unfold tierEntries
  unfold IgtRn at h
  revert h
  generalize x.kids = l
  generalize y.kids = l'
  intro h
  induction h with
  | nil => exact .nil
  | cons h _ ih => exact .cons ⟨h.1.mono fun _ _ => IdRn.ref, trivial⟩ ih

theorem itemNodes_rn {x y : Obj} (h : IgtRn f refs x y) :
    Pairs2 (fun n n' : Obj × Obj => TierRn f refs n.1 n'.1 ∧ ItemRn f refs n.2 n'.2) (itemNodes x) (itemNodes y) := by
  unfold itemNodes
  unfold IgtRn at h
  revert h
  generalize x.kids = l
  generalize y.kids = l'
  intro h
  induction h with
  | nil => exact .nil
  | @cons t t' l l' h _ ih =>
    rw [List.flatMap_cons, List.flatMap_cons]
    refine Pairs2.append ?_ ih
    have := h.2
    revert this
    generalize t.kids = k
    generalize t'.kids = k'
    intro hk
    induction hk with
    | nil => exact .nil
    | cons hi _ ih => exact .cons ⟨h, hi⟩ ih

theorem itemEntries_rn {x y : Obj} (h : IgtRn f refs x y) : Pairs2 (EntryRn f refs) (itemEntries x) (itemEntries y) := by
  unfold itemEntries
  have := itemNodes_rn h
  revert this
  generalize itemNodes x = l
  generalize itemNodes y = l'
  intro this
  induction this with
  | nil => exact .nil
  | cons h _ ih => exact .cons ⟨h.2, h.1⟩ ih

theorem allowed_rn {allowed : Entry → List Str} (h : ByType allowed) {e e' : Entry} (he : EntryRn f refs e e') : allowed e' = allowed e := by
  refine h e' e he.1.type ?_
  have := he.2
  revert this
  cases e.tier <;> cases e'.tier <;> intro this
  · rfl
  · exact this.elim
  · exact this.elim
  · simp only [Option.map, this.1.type]

/-! The indexes -/

/-- dicts whose keys are renamed, and their values changed by `g` -/
def rnKeys {α : Type} (f : Str → Str) (g : α → α) (d : Dict Str α) : Dict Str α := d.map fun p => (f p.1, g p.2)

theorem set_rnKeys (hf : Renames f) {α : Type} (g : α → α) {d : Dict Str α} (hd : ∀ p ∈ d, IdOK p.1) {k : Str} (hk : IdOK k) (v : α) :
    Dict.set (rnKeys f g d) (f k) (g v) = rnKeys f g (Dict.set d k v) := by
  unfold rnKeys
  induction d with
  | nil => rfl
  | cons p d ih =>
    have hp := hd p (by simp)
    have e : (f p.1 = f k) ↔ p.1 = k := ⟨hf.inj _ _ hp hk, fun h => by rw [h]⟩
    simp only [List.map_cons, Dict.set]
    by_cases h : p.1 = k
    · rw [if_pos h, if_pos (e.2 h)]; rfl
    · rw [if_neg h, if_neg fun h' => h (e.1 h'), ih fun q hq => hd q (by simp [hq])]; rfl

theorem get?_rnKeys (hf : Renames f) {α : Type} (g : α → α) {d : Dict Str α} (hd : ∀ p ∈ d, IdOK p.1) {k : Str} (hk : IdOK k) :
    Dict.get? (rnKeys f g d) (f k) = (Dict.get? d k).map g := by
  unfold rnKeys
  induction d with
  | nil => rfl
  | cons p d ih =>
    have e : (f p.1 = f k) ↔ p.1 = k := ⟨hf.inj _ _ (hd p (by simp)) hk, fun h => by rw [h]⟩
    simp only [List.map_cons, Dict.get?]
    by_cases h : p.1 = k
    · rw [if_pos h, if_pos (e.2 h)]; rfl
    · rw [if_neg h, if_neg fun h' => h (e.1 h'), ih fun q hq => hd q (by simp [hq])]

theorem set_keys_ok {α : Type} {d : Dict Str α} (hd : ∀ p ∈ d, IdOK p.1) {k : Str} (hk : IdOK k) (v : α) : ∀ p ∈ Dict.set d k v, IdOK p.1 := by
  induction d with
  | nil => intro p hp; rw [Dict.set, List.mem_singleton] at hp; rw [hp]; exact hk
  | cons q d ih =>
    intro p hp
    rw [Dict.set] at hp
    split at hp
    · rcases List.mem_cons.1 hp with rfl | hp
      · exact hd q (by simp)
      · exact hd p (by simp [hp])
    · rcases List.mem_cons.1 hp with rfl | hp
      · exact hd _ (by simp)
      · exact ih (fun r hr => hd r (by simp [hr])) p hp

theorem idsMap_rn (hf : Renames f) {allowed : Entry → List Str} (hal : ByType allowed) (hin : ∀ e, ∀ ra ∈ allowed e, ra ∈ refs) {l l' : List Entry}
    (h : Pairs2 (EntryRn f refs) l l') : idsMap allowed l' = rnKeys f (rnMap f) (idsMap allowed l) ∧ ∀ p ∈ idsMap allowed l, IdOK p.1 := by
  unfold idsMap
  have : ∀ (m : Dict Str (Dict Str (List Str))), (∀ p ∈ m, IdOK p.1) →
      l'.foldl (fun m e => match e.id with | none => m | some i => Dict.set m i (raMap e.obj (allowed e))) (rnKeys f (rnMap f) m) =
        rnKeys f (rnMap f) (l.foldl (fun m e => match e.id with | none => m | some i => Dict.set m i (raMap e.obj (allowed e))) m) ∧
      ∀ p ∈ l.foldl (fun m e => match e.id with | none => m | some i => Dict.set m i (raMap e.obj (allowed e))) m, IdOK p.1 := by
    induction h with
    | nil => intro m hm; exact ⟨rfl, hm⟩
    | @cons e e' l l' he _ ih =>
      intro m hm
      rw [List.foldl_cons, List.foldl_cons]
      have hid : e'.id = e.id.map f := he.1.id
      rw [hid, allowed_rn hal he, raMap_rn hf (fun _ _ h => h) he.1 (hin e)]
      cases hi : e.id with
      | none => exact ih m hm
      | some i =>
        simp only [Option.map]
        have hok : IdOK i := he.1.ok i hi
        rw [set_rnKeys hf (rnMap f) hm hok]
        exact ih _ (set_keys_ok hm hok _)
  exact this [] (by simp)

theorem invTriples_rn (m : Dict Str (Dict Str (List Str))) :
    invTriples (rnKeys f (rnMap f) m) = (invTriples m).map fun t => (f t.1, t.2.1, f t.2.2) := by
  simp only [invTriples, rnKeys, rnMap, List.map_flatMap, List.flatMap_map, List.map_map]
  rfl

theorem invMap_rn (hf : Renames f) {m : Dict Str (Dict Str (List Str))} (hok : ∀ t ∈ invTriples m, IdOK t.1) :
    invMap (rnKeys f (rnMap f) m) = rnKeys f (rnMap f) (invMap m) ∧ ∀ p ∈ invMap m, IdOK p.1 := by
  unfold invMap
  rw [invTriples_rn]
  revert hok
  generalize invTriples m = l
  intro hok
  have : ∀ (l : List (Str × Str × Str)) (inv : Dict Str (Dict Str (List Str))), (∀ t ∈ l, IdOK t.1) → (∀ p ∈ inv, IdOK p.1) →
      (l.map fun t => (f t.1, t.2.1, f t.2.2)).foldl (fun inv t => invAdd inv t.1 t.2.1 t.2.2) (rnKeys f (rnMap f) inv) =
        rnKeys f (rnMap f) (l.foldl (fun inv t => invAdd inv t.1 t.2.1 t.2.2) inv) ∧
      ∀ p ∈ l.foldl (fun inv t => invAdd inv t.1 t.2.1 t.2.2) inv, IdOK p.1 := by
    intro l
    induction l with
    | nil => intro inv _ h; exact ⟨rfl, h⟩
    | cons t l ih =>
      intro inv hl hinv
      have ht := hl t (by simp)
      rw [List.map_cons, List.foldl_cons, List.foldl_cons]
      have e : invAdd (rnKeys f (rnMap f) inv) (f t.1) t.2.1 (f t.2.2) = rnKeys f (rnMap f) (invAdd inv t.1 t.2.1 t.2.2) := by
        unfold invAdd
        simp only [get?_rnKeys hf (rnMap f) hinv ht]
        have e1 : ((Dict.get? inv t.1).map (rnMap f)).getD [] = rnMap f ((Dict.get? inv t.1).getD []) := by
          cases Dict.get? inv t.1 <;> rfl
        rw [e1, get?_rnMap]
        have e2 : ((Dict.get? ((Dict.get? inv t.1).getD []) t.2.1).map (List.map f)).getD [] ++ [f t.2.2] =
            (((Dict.get? ((Dict.get? inv t.1).getD []) t.2.1).getD []) ++ [t.2.2]).map f := by
          rw [List.map_append]
          cases Dict.get? ((Dict.get? inv t.1).getD []) t.2.1 <;> rfl
        rw [e2, set_rnMap, set_rnKeys hf (rnMap f) hinv ht]
      simp only [e]
      exact ih _ (fun s hs => hl s (by simp [hs])) (by unfold invAdd; exact set_keys_ok hinv ht _)
  exact this l [] hok (by simp)

theorem raMap_ok (x : Obj) (ras : List Str) : ∀ p ∈ raMap x ras, ∀ i ∈ p.2, IdOK i := by
  unfold raMap
  have : ∀ (l : List Str) (m : Dict Str (List Str)), (∀ p ∈ m, ∀ i ∈ p.2, IdOK i) →
      ∀ p ∈ l.foldl (fun m ra => Dict.set m ra (ids (attr0 x ra))) m, ∀ i ∈ p.2, IdOK i := by
    intro l
    induction l with
    | nil => intro m h; exact h
    | cons ra l ih =>
      intro m h
      rw [List.foldl_cons]
      refine ih _ ?_
      have hi : ∀ i ∈ ids (attr0 x ra), IdOK i := fun i hi => (C13_ids_occur _ i hi).1
      clear ih
      induction m with
      | nil => intro p hp; rw [Dict.set, List.mem_singleton] at hp; rw [hp]; exact hi
      | cons q m ih =>
        intro p hp
        rw [Dict.set] at hp
        split at hp
        · rcases List.mem_cons.1 hp with rfl | hp
          · exact hi
          · exact h p (by simp [hp])
        · rcases List.mem_cons.1 hp with rfl | hp
          · exact h _ (by simp)
          · exact ih (fun r hr => h r (by simp [hr])) p hp
  exact this ras [] (by simp)

theorem mem_dictSet {α : Type} {d : Dict Str α} {k : Str} {v : α} {p : Str × α} (h : p ∈ Dict.set d k v) : p ∈ d ∨ p.2 = v := by
  induction d with
  | nil => rw [Dict.set, List.mem_singleton] at h; rw [h]; exact .inr rfl
  | cons q d ih =>
    rw [Dict.set] at h
    split at h
    · rcases List.mem_cons.1 h with rfl | h
      · exact .inr rfl
      · exact .inl (by simp [h])
    · rcases List.mem_cons.1 h with rfl | h
      · exact .inl (by simp)
      · rcases ih h with h | h
        · exact .inl (by simp [h])
        · exact .inr h

theorem idsMap_triples (allowed : Entry → List Str) (l : List Entry) : ∀ t ∈ invTriples (idsMap allowed l), IdOK t.1 := by
  have hm : ∀ (l : List Entry) (m : Dict Str (Dict Str (List Str))), (∀ p ∈ m, ∀ q ∈ p.2, ∀ i ∈ q.2, IdOK i) →
      ∀ p ∈ l.foldl (fun m e => match e.id with | none => m | some i => Dict.set m i (raMap e.obj (allowed e))) m, ∀ q ∈ p.2, ∀ i ∈ q.2, IdOK i := by
    intro l
    induction l with
    | nil => intro m h; exact h
    | cons e l ih =>
      intro m h
      rw [List.foldl_cons]
      refine ih _ ?_
      cases e.id with
      | none => exact h
      | some i =>
        intro p hp
        rcases mem_dictSet hp with hp | hp
        · exact h p hp
        · rw [hp]; exact raMap_ok _ _
  intro t ht
  simp only [invTriples, List.mem_flatMap, List.mem_map] at ht
  obtain ⟨o, ho, r, hr, i, hi, rfl⟩ := ht
  exact hm l [] (by simp) o ho r hr i hi

/-! The functions -/

theorem refreshItems_rn (hf : Renames f) {l l' : List (Obj × Obj)}
    (h : Pairs2 (fun n n' : Obj × Obj => TierRn f refs n.1 n'.1 ∧ ItemRn f refs n.2 n'.2) l l') {s : Str} (hs : IdOK s) :
    ∀ (d d' : Dict (Option Str) (Obj × Obj)),
      Opt2 (fun n n' : Obj × Obj => TierRn f refs n.1 n'.1 ∧ ItemRn f refs n.2 n'.2) (Dict.get? d (some s)) (Dict.get? d' (some (f s))) →
      Opt2 (fun n n' : Obj × Obj => TierRn f refs n.1 n'.1 ∧ ItemRn f refs n.2 n'.2) (Dict.get? (refreshItems d l) (some s))
        (Dict.get? (refreshItems d' l') (some (f s))) := by
  induction h with
  | nil => intro d d' h; exact h
  | @cons n n' l l' hn _ ih =>
    intro d d' h
    refine ih _ _ ?_
    have e := Rn.same_id hf hn.2 hs
    simp only
    rw [Dict.get?_set, Dict.get?_set]
    by_cases hx : n.2.data.id = some s
    · rw [if_pos hx, if_pos (e.2 hx)]; exact hn
    · rw [if_neg hx, if_neg fun h' => hx (e.1 h')]; exact h

variable {allowed : Entry → List Str} {x y : Obj}

theorem igtGetItem_rn (hf : Renames f) (h : IgtRn f refs x y) {s : Str} (hs : IdOK s) :
    Opt2 (EntryRn f refs) (igtGetItem (newIgt allowed x) (some s)) (igtGetItem (newIgt allowed y) (some (f s))) := by
  have := refreshItems_rn hf (itemNodes_rn h) hs [] [] trivial
  unfold igtGetItem
  simp only [newIgt, refreshIndices]
  revert this
  cases Dict.get? (refreshItems [] (itemNodes x)) (some s) <;> cases Dict.get? (refreshItems [] (itemNodes y)) (some (f s)) <;> intro h
  · trivial
  · exact h.elim
  · exact h.elim
  · exact ⟨h.2, h.1⟩

theorem getAny_rn (hf : Renames f) (h : IgtRn f refs x y) {s : Str} (hs : IdOK s) :
    Opt2 (EntryRn f refs) (getAny (newIgt allowed x) s) (getAny (newIgt allowed y) (f s)) := by
  have hc := contGet_rn hf TierRn.rn hs h
  have hi := igtGetItem_rn (allowed := allowed) hf h hs
  unfold getAny
  simp only [show (newIgt allowed x).igt = x from rfl, show (newIgt allowed y).igt = y from rfl]
  revert hc
  cases contGet x.kids s <;> cases contGet y.kids (f s) <;> intro hc
  · exact hi
  · exact hc.elim
  · exact hc.elim
  · exact ⟨hc.1.mono fun _ _ => IdRn.ref, trivial⟩

theorem referents_rn (hf : Renames f) (hal : ByType allowed) (hin : ∀ e, ∀ ra ∈ allowed e, ra ∈ refs) (h : IgtRn f refs x y) {s : Str} (hs : IdOK s)
    (ras : Option (List Str)) (hras : ∀ l, ras = some l → ∀ ra ∈ l, ra ∈ refs) :
    referents allowed (newIgt allowed y) (f s) ras = (referents allowed (newIgt allowed x) s ras).map (rnMap f) := by
  have ha := getAny_rn (allowed := allowed) hf h hs
  unfold referents
  revert ha
  cases getAny (newIgt allowed x) s <;> cases getAny (newIgt allowed y) (f s) <;> intro ha
  · rfl
  · exact ha.elim
  · exact ha.elim
  · simp only [Except.map]
    rw [allowed_rn hal ha, raMap_rn hf (fun _ _ h => h) ha.1]
    cases ras with
    | none => exact hin _
    | some l => exact hras l rfl

theorem mem_map_rn (hf : Renames f) {l : List Str} (hl : ∀ i ∈ l, IdOK i) {s : Str} (hs : IdOK s) : f s ∈ l.map f ↔ s ∈ l := by
  rw [List.mem_map]
  constructor
  · rintro ⟨i, hi, e⟩
    rw [← hf.inj _ _ (hl i hi) hs e]; exact hi
  · exact fun h => ⟨s, h, rfl⟩

theorem referrersObj_rn (hf : Renames f) (hal : ByType allowed) (hin : ∀ e, ∀ ra ∈ allowed e, ra ∈ refs) {s : Str} (hs : IdOK s)
    (ras : Option (List Str)) (hras : ∀ l, ras = some l → ∀ ra ∈ l, ra ∈ refs) {l l' : List Entry} (h : Pairs2 (EntryRn f refs) l l') :
    ∀ m, l'.foldl (referrersObj allowed (f s) ras) (rnMap f m) = rnMap f (l.foldl (referrersObj allowed s ras) m) := by
  induction h with
  | nil => intro m; rfl
  | @cons e e' l l' he _ ih =>
    intro m
    rw [List.foldl_cons, List.foldl_cons]
    have : referrersObj allowed (f s) ras (rnMap f m) e' = rnMap f (referrersObj allowed s ras m e) := by
      unfold referrersObj
      have hid : e'.id = e.id.map f := he.1.id
      rw [hid, allowed_rn hal he]
      cases hi : e.id with
      | none => rfl
      | some i =>
        simp only [Option.map]
        have hsub : ∀ ra ∈ ras.getD (allowed e), ra ∈ refs := by
          cases ras with
          | none => exact hin e
          | some l => exact hras l rfl
        revert hsub
        generalize ras.getD (allowed e) = rs
        clear ih
        induction rs generalizing m with
        | nil => intro _; rfl
        | cons ra rs ih =>
          intro hsub
          rw [List.foldl_cons, List.foldl_cons]
          have : referrersAttr (f s) e'.obj (f i) (rnMap f m) ra = rnMap f (referrersAttr s e.obj i m ra) := by
            unfold referrersAttr
            simp only [attr0_rn hf (fun _ _ h => h) he.1 (hsub ra (by simp)), mem_map_rn hf (fun i hi => (C13_ids_occur _ i hi).1) hs, get?_rnMap]
            have e1 : ((Dict.get? m ra).map (List.map f)).getD [] = ((Dict.get? m ra).getD []).map f := by
              cases Dict.get? m ra <;> rfl
            rw [e1, ← set_rnMap]
            congr 1
            split
            · rw [List.map_append]; rfl
            · rfl
          rw [this]
          exact ih _ fun r hr => hsub r (by simp [hr])
    rw [this]
    exact ih _

theorem referrersInit_rn (ras : Option (List Str)) : rnMap f (referrersInit ras) = referrersInit ras := by
  cases ras with
  | none => rfl
  | some l =>
    unfold referrersInit
    have : ∀ (l : List Str) (m : Dict Str (List Str)), rnMap f m = m → rnMap f (l.foldl (fun m ra => Dict.set m ra []) m) = l.foldl (fun m ra => Dict.set m ra []) m := by
      intro l
      induction l with
      | nil => intro m h; exact h
      | cons ra l ih =>
        intro m h
        rw [List.foldl_cons]
        refine ih _ ?_
        rw [← set_rnMap, h]; rfl
    exact this l [] rfl

theorem referrers_rn (hf : Renames f) (hal : ByType allowed) (hin : ∀ e, ∀ ra ∈ allowed e, ra ∈ refs) (h : IgtRn f refs x y) {s : Str} (hs : IdOK s)
    (ras : Option (List Str)) (hras : ∀ l, ras = some l → ∀ ra ∈ l, ra ∈ refs) :
    referrers allowed (newIgt allowed y) (f s) ras = (referrers allowed (newIgt allowed x) s ras).map (rnMap f) := by
  have hi := igtGetItem_rn (allowed := allowed) hf h hs
  have h1 := referrersObj_rn hf hal hin hs ras hras (tierEntries_rn h) (referrersInit ras)
  have h2 := referrersObj_rn hf hal hin hs ras hras (itemEntries_rn h) (referrersInit ras)
  rw [referrersInit_rn] at h1 h2
  unfold referrers
  simp only [show (newIgt allowed x).igt = x from rfl, show (newIgt allowed y).igt = y from rfl]
  rcases contItem_rn hf TierRn.rn hs h with ⟨a, b, c1, c2, -⟩ | ⟨c1, c2⟩ <;> rw [c1, c2]
  · simp only [Except.map, h1]
  · simp only
    revert hi
    cases igtGetItem (newIgt allowed x) (some s) <;> cases igtGetItem (newIgt allowed y) (some (f s)) <;> intro hi
    · rfl
    · exact hi.elim
    · exact hi.elim
    · simp only [Except.map, h2]

/-- **C142**, references: of an ID after renaming they are the ones it had before, renamed; or the same exception. -/
theorem C142_references (hf : Renames f) (hal : ByType allowed) (hin : ∀ e, ∀ ra ∈ allowed e, ra ∈ refs) (h : IgtRn f refs x y) (s : Str) (hs : IdOK s)
    (ras : Option (List Str)) (hras : ∀ l, ras = some l → ∀ ra ∈ l, ra ∈ refs) :
    igtReferents allowed (newIgt allowed y) (f s) ras = (igtReferents allowed (newIgt allowed x) s ras).map (rnMap f) ∧
    igtReferrers allowed (newIgt allowed y) (f s) ras = (igtReferrers allowed (newIgt allowed x) s ras).map (rnMap f) := by
  cases ras with
  | some l => exact ⟨referents_rn hf hal hin h hs (some l) hras, referrers_rn hf hal hin h hs (some l) hras⟩
  | none =>
    obtain ⟨h1, h2⟩ := idsMap_rn hf hal hin ((tierEntries_rn h).append (itemEntries_rn h))
    obtain ⟨h3, h4⟩ := invMap_rn hf (idsMap_triples allowed (tierEntries x ++ itemEntries x))
    have hd : ∀ o : Option (Dict Str (List Str)), (o.map (rnMap f)).getD [] = rnMap f (o.getD []) := by intro o; cases o <;> rfl
    constructor
    · simp only [igtReferents, newIgt, refreshIndices, Except.map, h1, get?_rnKeys hf (rnMap f) h2 hs, hd]
    · simp only [igtReferrers, newIgt, refreshIndices, Except.map, h1, h3, get?_rnKeys hf (rnMap f) h4 hs, hd]

/-! ### descendants() -/

/-- a result of a query with other IDs -/
structure StepRn (f : Str → Str) (refs : List Str) (s s' : Step) : Prop where
  src : TierRn f refs s.src s'.src
  ra : s'.ra = s.ra
  tgt : TierRn f refs s.tgt s'.tgt
  items : Pairs2 (ItemRn f refs) s.items s'.items

theorem Pairs2.filter {α : Type} {R : α → α → Prop} {p q : α → Bool} (h : ∀ x y, R x y → q y = p x) {l l' : List α} (hl : Pairs2 R l l') :
    Pairs2 R (l.filter p) (l'.filter q) := by
  induction hl with
  | nil => exact .nil
  | @cons x y l l' hxy _ ih =>
    rw [List.filter_cons, List.filter_cons, h x y hxy]
    split
    · exact .cons hxy ih
    · exact ih

theorem refs_any (hf : Renames f) {a b : Obj} (h : ItemRn f refs a b) {ra : Str} (hra : ra ∈ refs) {itemIds : List Str} (hi : ∀ i ∈ itemIds, IdOK i) :
    ((ids (attr0 b ra)).any fun j => decide (j ∈ itemIds.map f)) = (ids (attr0 a ra)).any fun j => decide (j ∈ itemIds) := by
  rw [attr0_rn hf (fun _ _ h => h) h hra, List.any_map]
  have hok : ∀ i ∈ ids (attr0 a ra), IdOK i := fun i hi => (C13_ids_occur _ i hi).1
  revert hok
  generalize ids (attr0 a ra) = l
  induction l with
  | nil => intro _; rfl
  | cons j l ih =>
    intro hok
    rw [List.any_cons, List.any_cons, ih fun i hi => hok i (by simp [hi])]
    simp only [Function.comp_apply, mem_map_rn hf hi (hok j (by simp))]

theorem descTiers_rn (hf : Renames f) (h : IgtRn f refs x y) {tier tier' : Obj} (ht : TierRn f refs tier tier') {ra : Str} (hra : ra ∈ refs)
    {itemIds : List Str} (hi : ∀ i ∈ itemIds, IdOK i) : ∀ {is : List Str}, (∀ i ∈ is, IdOK i) →
    Pairs2 (StepRn f refs) (descTiers x tier ra itemIds is).1 (descTiers y tier' ra (itemIds.map f) (is.map f)).1 ∧
    (descTiers y tier' ra (itemIds.map f) (is.map f)).2 = (descTiers x tier ra itemIds is).2 := by
  intro is
  induction is with
  | nil => intro _; exact ⟨.nil, rfl⟩
  | cons i is ih =>
    intro his
    obtain ⟨h1, h2⟩ := ih fun j hj => his j (by simp [hj])
    simp only [List.map_cons, descTiers]
    rcases contItem_rn hf TierRn.rn (his i (by simp)) h with ⟨a, b, c1, c2, c3⟩ | ⟨c1, c2⟩ <;> rw [c1, c2]
    · refine ⟨.cons ⟨ht, rfl, c3, ?_⟩ h1, h2⟩
      exact Pairs2.filter (R := ItemRn f refs) (fun a b hab => refs_any hf hab hra hi) c3.2
    · exact ⟨.nil, rfl⟩

theorem descAttrs_rn (hf : Renames f) (h : IgtRn f refs x y) {tier tier' : Obj} (ht : TierRn f refs tier tier') {tid : Str} (hid : IdOK tid)
    {itemIds : List Str} (hi : ∀ i ∈ itemIds, IdOK i) {m : Dict Str (List Str)} (hm : ∀ p ∈ m, ∀ i ∈ p.2, IdOK i) :
    ∀ {ras : List Str} {visited : List (Str × Str)}, (∀ ra ∈ ras, ra ∈ refs) → (∀ p ∈ visited, IdOK p.1) →
    let r := descAttrs x tier tid itemIds m visited ras
    let r' := descAttrs y tier' (f tid) (itemIds.map f) (rnMap f m) (visited.map fun p => (f p.1, p.2)) ras
    r'.1 = (r.1.map fun p => (f p.1, p.2)) ∧ (∀ p ∈ r.1, IdOK p.1) ∧ Pairs2 (StepRn f refs) r.2.1 r'.2.1 ∧ r'.2.2 = r.2.2 := by
  intro ras
  induction ras with
  | nil => intro visited _ hv; exact ⟨rfl, hv, .nil, rfl⟩
  | cons ra ras ih =>
    intro visited hras hv
    have hmem : ((f tid, ra) ∈ visited.map fun p => (f p.1, p.2)) ↔ (tid, ra) ∈ visited := by
      rw [List.mem_map]
      constructor
      · rintro ⟨⟨a, b⟩, hp, e⟩
        simp only [Prod.mk.injEq] at e
        rw [← hf.inj _ _ (hv _ hp) hid e.1, ← e.2]; exact hp
      · exact fun h => ⟨_, h, rfl⟩
    have hms : ∀ i ∈ (Dict.get? m ra).getD [], IdOK i := by
      cases hg : Dict.get? m ra with
      | none => simp
      | some l => exact hm _ (Dict.get?_mem hg)
    have hge : (Dict.get? (rnMap f m) ra).getD [] = ((Dict.get? m ra).getD []).map f := by
      rw [get?_rnMap]; cases Dict.get? m ra <;> rfl
    obtain ⟨s1, s2⟩ := descTiers_rn hf h ht (hras ra (by simp)) hi hms
    have hv' : ∀ p ∈ visited ++ [(tid, ra)], IdOK p.1 := by
      intro p hp
      rcases List.mem_append.1 hp with hp | hp
      · exact hv p hp
      · rw [List.mem_singleton] at hp; rw [hp]; exact hid
    simp only [descAttrs, hmem, hge]
    split
    · exact ih (fun r hr => hras r (by simp [hr])) hv
    · rw [s2]
      have hve : (visited.map fun p => (f p.1, p.2)) ++ [(f tid, ra)] = (visited ++ [(tid, ra)]).map fun p => (f p.1, p.2) := by simp
      cases hr : (descTiers x tier ra itemIds ((Dict.get? m ra).getD [])).2 with
      | some e =>
        simp only [hve]
        exact ⟨trivial, hv', s1, trivial⟩
      | none =>
        simp only [hve]
        obtain ⟨r1, r2, r3, r4⟩ := ih (fun r hr => hras r (by simp [hr])) hv'
        exact ⟨r1, r2, s1.append r3, r4⟩

theorem referrers_ok {l : List Entry} (h : ∀ e ∈ l, ∀ i, e.id = some i → IdOK i) (s : Str) (ras : Option (List Str)) :
    ∀ m : Dict Str (List Str), (∀ p ∈ m, ∀ i ∈ p.2, IdOK i) → ∀ p ∈ l.foldl (referrersObj allowed s ras) m, ∀ i ∈ p.2, IdOK i := by
  induction l with
  | nil => intro m h; exact h
  | cons e l ih =>
    intro m hm
    rw [List.foldl_cons]
    refine ih (fun e he => h e (by simp [he])) _ ?_
    unfold referrersObj
    cases hi : e.id with
    | none => exact hm
    | some i =>
      have hok := h e (by simp) i hi
      simp only
      generalize ras.getD (allowed e) = rs
      clear ih
      induction rs generalizing m with
      | nil => exact hm
      | cons ra rs ih =>
        rw [List.foldl_cons]
        refine ih _ ?_
        intro p hp
        rcases mem_dictSet hp with hp | hp
        · exact hm p hp
        · have hc : ∀ j ∈ (Dict.get? m ra).getD [], IdOK j := by
            cases hg : Dict.get? m ra with
            | none => simp
            | some l => exact hm _ (Dict.get?_mem hg)
          rw [hp]
          intro j hj
          split at hj
          · rcases List.mem_append.1 hj with hj | hj
            · exact hc j hj
            · rw [List.mem_singleton] at hj; rw [hj]; exact hok
          · exact hc j hj

theorem entries_ok {l l' : List Entry} (h : Pairs2 (EntryRn f refs) l l') : ∀ e ∈ l, ∀ i, e.id = some i → IdOK i := by
  induction h with
  | nil => intro e he; cases he
  | cons h _ ih =>
    intro e he
    rcases List.mem_cons.1 he with rfl | he
    · exact h.1.ok
    · exact ih e he

theorem init_ok (ras : Option (List Str)) : ∀ p ∈ referrersInit ras, ∀ i ∈ p.2, IdOK i := by
  cases ras with
  | none => intro p hp; cases hp
  | some l =>
    unfold referrersInit
    have : ∀ (l : List Str) (m : Dict Str (List Str)), (∀ p ∈ m, ∀ i ∈ p.2, IdOK i) →
        ∀ p ∈ l.foldl (fun m ra => Dict.set m ra []) m, ∀ i ∈ p.2, IdOK i := by
      intro l
      induction l with
      | nil => intro m h; exact h
      | cons ra l ih =>
        intro m h
        rw [List.foldl_cons]
        refine ih _ fun p hp => ?_
        rcases mem_dictSet hp with hp | hp
        · exact h p hp
        · rw [hp]; intro i hi; cases hi
    exact this l [] (by simp)

theorem referrers_result_ok (h : IgtRn f refs x y) {s : Str} {ras : Option (List Str)} {m : Dict Str (List Str)}
    (hr : referrers allowed (newIgt allowed x) s ras = .ok m) : ∀ p ∈ m, ∀ i ∈ p.2, IdOK i := by
  unfold referrers at hr
  simp only [show (newIgt allowed x).igt = x from rfl] at hr
  split at hr
  · cases hr; exact referrers_ok (entries_ok (tierEntries_rn h)) s ras _ (init_ok ras)
  · split at hr
    · cases hr
    · cases hr; exact referrers_ok (entries_ok (itemEntries_rn h)) s ras _ (init_ok ras)
  · cases hr

theorem tierReferrers_rn (hf : Renames f) (hal : ByType allowed) (hin : ∀ e, ∀ ra ∈ allowed e, ra ∈ refs) (h : IgtRn f refs x y) {tier tier' : Obj}
    (ht : TierRn f refs tier tier') {ras : List Str} (hras : ∀ ra ∈ ras, ra ∈ refs) :
    (∃ tid m, tierReferrers allowed (newIgt allowed x) tier ras = .ok (tid, m) ∧
      tierReferrers allowed (newIgt allowed y) tier' ras = .ok (f tid, rnMap f m) ∧ IdOK tid ∧ ∀ p ∈ m, ∀ i ∈ p.2, IdOK i) ∨
    ∃ e, tierReferrers allowed (newIgt allowed x) tier ras = .error e ∧ tierReferrers allowed (newIgt allowed y) tier' ras = .error e := by
  unfold tierReferrers
  rw [ht.1.id]
  cases hi : tier.data.id with
  | none => exact .inr ⟨_, rfl, rfl⟩
  | some i =>
    have hok := ht.1.ok i hi
    have hr := referrers_rn (allowed := allowed) hf hal hin h hok (some ras) (by intro l e; cases e; exact hras)
    obtain ⟨c, cs, e⟩ := List.exists_cons_of_ne_nil (idOK_ne hok)
    obtain ⟨c', cs', e'⟩ := List.exists_cons_of_ne_nil (idOK_ne (hf.ok i hok))
    simp only [Option.map, e']
    rw [e'] at hr
    subst e
    simp only [igtReferrers]
    rw [hr]
    cases hx : referrers allowed (newIgt allowed x) (c :: cs) (some ras) with
    | error e => exact .inr ⟨e, rfl, rfl⟩
    | ok m => exact .inl ⟨_, m, rfl, by rw [e']; rfl, hok, referrers_result_ok h hx⟩

theorem Pairs2.map {α β : Type} {R : α → α → Prop} {S : β → β → Prop} {g : α → β} (h : ∀ x y, R x y → S (g x) (g y)) {l l' : List α} (hl : Pairs2 R l l') :
    Pairs2 S (l.map g) (l'.map g) := by
  induction hl with
  | nil => exact .nil
  | cons hxy _ ih => exact .cons (h _ _ hxy) ih

/-- **C142**, `descendants()`: as many steps, of the tiers and items they were of, and it ends as before. -/
theorem C142_descendants (hf : Renames f) (hal : ByType allowed) (hin : ∀ e, ∀ ra ∈ allowed e, ra ∈ refs) (h : IgtRn f refs x y)
    (ras : List Str) (hras : ∀ ra ∈ ras, ra ∈ refs) (all : Bool) (n : Nat) (tier tier' : Obj) (ht : TierRn f refs tier tier') (items items' : List Obj)
    (hi : Pairs2 (ItemRn f refs) items items') :
    Pairs2 (StepRn f refs) (descendants allowed (newIgt allowed x) ras all n tier items).1 (descendants allowed (newIgt allowed y) ras all n tier' items').1 ∧
    (descendants allowed (newIgt allowed y) ras all n tier' items').2 = (descendants allowed (newIgt allowed x) ras all n tier items).2 := by
  unfold descendants
  have main : ∀ (n : Nat) (visited : List (Str × Str)) (ag ag' : List (Obj × List Obj)), (∀ p ∈ visited, IdOK p.1) →
      Pairs2 (fun p p' : Obj × List Obj => TierRn f refs p.1 p'.1 ∧ Pairs2 (ItemRn f refs) p.2 p'.2) ag ag' →
      Pairs2 (StepRn f refs) (descLoop allowed (newIgt allowed x) ras all n visited ag).1
        (descLoop allowed (newIgt allowed y) ras all n (visited.map fun p => (f p.1, p.2)) ag').1 ∧
      (descLoop allowed (newIgt allowed y) ras all n (visited.map fun p => (f p.1, p.2)) ag').2 =
        (descLoop allowed (newIgt allowed x) ras all n visited ag).2 := by
    intro n
    induction n with
    | zero => intro visited ag ag' _ _; exact ⟨.nil, rfl⟩
    | succ n ih =>
      intro visited ag ag' hv hag
      cases hag with
      | nil => exact ⟨.nil, rfl⟩
      | @cons p p' l l' hp hl =>
        obtain ⟨t, is⟩ := p
        obtain ⟨t', is'⟩ := p'
        obtain ⟨ht, his⟩ := hp
        simp only [descLoop]
        rcases tierReferrers_rn hf hal hin h ht hras with ⟨tid, m, h1, h2, hid, hm⟩ | ⟨e, h1, h2⟩ <;> simp only [h1, h2]
        · have hii : ∀ {l l' : List Obj}, Pairs2 (ItemRn f refs) l l' →
              (l'.filterMap fun i => i.data.id) = (l.filterMap fun i => i.data.id).map f ∧ ∀ i ∈ l.filterMap fun i => i.data.id, IdOK i := by
            intro l l' hl
            induction hl with
            | nil => exact ⟨rfl, by simp⟩
            | @cons a b l l' hab _ ih =>
              rw [List.filterMap_cons, List.filterMap_cons, Rn.id hab]
              cases ha : a.data.id with
              | none => exact ih
              | some i =>
                refine ⟨by simp only [Option.map, List.map_cons, ih.1], fun j hj => ?_⟩
                rcases List.mem_cons.1 hj with rfl | hj
                · exact Rn.ok hab _ ha
                · exact ih.2 j hj
          obtain ⟨e1, e2⟩ := hii his
          have hfol : descFollow all ras (rnMap f m) = descFollow all ras m := by
            unfold descFollow
            have : (fun ra => decide ((Dict.get? (rnMap f m) ra).getD [] ≠ [])) = fun ra => decide ((Dict.get? m ra).getD [] ≠ []) := by
              funext ra
              rw [get?_rnMap]
              cases Dict.get? m ra with
              | none => rfl
              | some l => cases l <;> rfl
            rw [this]
          have hsub : ∀ ra ∈ descFollow all ras m, ra ∈ refs := by
            intro ra hra
            unfold descFollow at hra
            simp only at hra
            split at hra
            · exact hras ra (List.mem_filter.1 hra).1
            · exact hras ra (List.mem_filter.1 (List.mem_of_mem_take hra)).1
          obtain ⟨r1, r2, r3, r4⟩ := descAttrs_rn hf h ht hid e2 hm hsub hv
          simp only [show (newIgt allowed x).igt = x from rfl, show (newIgt allowed y).igt = y from rfl, e1, hfol]
          rw [r4, r1]
          cases hr : (descAttrs x t tid (is.filterMap fun i => i.data.id) m visited (descFollow all ras m)).2.2 with
          | some e => exact ⟨r3, rfl⟩
          | none =>
            obtain ⟨q1, q2⟩ := ih _ _ _ r2 (hl.append (Pairs2.map (g := fun s : Step => (s.tgt, s.items))
              (S := fun p p' : Obj × List Obj => TierRn f refs p.1 p'.1 ∧ Pairs2 (ItemRn f refs) p.2 p'.2)
              (fun s s' h => ⟨h.tgt, h.items⟩) r3))
            exact ⟨r3.append q1, q2⟩
        · exact ⟨.nil, trivial⟩
  exact main n [] _ _ (by simp) (.cons ⟨ht, hi⟩ .nil)

/-! ### ancestors() -/

/-- tiers of the igt, with IDs of more than one character -/
def LongRn (f : Str → Str) (refs : List Str) (t t' : Obj) : Prop :=
  TierRn f refs t t' ∧ ∀ c, t.data.id ≠ some [c] ∧ t'.data.id ≠ some [c]

theorem refItems_rn (hf : Renames f) {r r' : Obj} (hr : TierRn f refs r r') {ra : Str} (hra : ra ∈ refs) {items items' : List Obj}
    (hi : Pairs2 (ItemRn f refs) items items') : Pairs2 (ItemRn f refs) (refItems ra items r) (refItems ra items' r') := by
  unfold refItems
  have e : (items'.flatMap fun i => ids (attr0 i ra)) = (items.flatMap fun i => ids (attr0 i ra)).map f := by
    induction hi with
    | nil => rfl
    | cons h _ ih => rw [List.flatMap_cons, List.flatMap_cons, List.map_append, ih, attr0_rn hf (fun _ _ h => h) h hra]
  have hok : ∀ i ∈ items.flatMap fun i => ids (attr0 i ra), IdOK i := by
    intro i h
    obtain ⟨a, -, h⟩ := List.mem_flatMap.1 h
    exact (C13_ids_occur _ i h).1
  simp only [e]
  revert hok
  generalize (items.flatMap fun i => ids (attr0 i ra)) = l
  intro hok
  refine Pairs2.filter (R := ItemRn f refs) (fun a b hab => ?_) hr.2
  rw [List.any_map]
  induction l with
  | nil => rfl
  | cons j l ih =>
    rw [List.any_cons, List.any_cons, ih fun i hi => hok i (by simp [hi])]
    simp only [Function.comp_apply, Rn.same_id hf hab (hok j (by simp))]

/-- **C142**, `ancestors()`, of tiers with IDs of more than one character before and after: as many steps, of the tiers and
items they were of, and it ends as before.  (`visited.update(reftier.id)` adds the characters of an ID.) -/
theorem C142_ancestors_partial (hf : Renames f) (hg : Pairs2 (LongRn f refs) x.kids y.kids)
    (ras : List Str) (hras : ∀ ra ∈ ras, ra ∈ refs) (n : Nat) (tier tier' : Obj) (ht : TierRn f refs tier tier') (items items' : List Obj)
    (hi : Pairs2 (ItemRn f refs) items items') :
    Pairs2 (StepRn f refs) (ancestors (newIgt allowed x) ras n tier items).1 (ancestors (newIgt allowed y) ras n tier' items').1 ∧
    (ancestors (newIgt allowed y) ras n tier' items').2 = (ancestors (newIgt allowed x) ras n tier items).2 := by
  have h : IgtRn f refs x y := by
    unfold IgtRn
    revert hg
    generalize x.kids = l
    generalize y.kids = l'
    intro hg
    induction hg with
    | nil => exact .nil
    | cons h _ ih => exact .cons h.1 ih
  have main : ∀ (n : Nat) (v v' : List (Option Str)) (tier tier' : Obj) (items items' : List Obj),
      (∀ t t', LongRn f refs t t' → (t'.data.id ∈ v' ↔ t.data.id ∈ v)) → TierRn f refs tier tier' → Pairs2 (ItemRn f refs) items items' →
      Pairs2 (StepRn f refs) (ancLoop (newIgt allowed x) ras n v tier items).1 (ancLoop (newIgt allowed y) ras n v' tier' items').1 ∧
      (ancLoop (newIgt allowed y) ras n v' tier' items').2 = (ancLoop (newIgt allowed x) ras n v tier items).2 := by
    intro n
    induction n with
    | zero => intros; exact ⟨.nil, rfl⟩
    | succ n ih =>
      intro v v' tier tier' items items' hv ht hi
      unfold ancLoop
      rw [show (fun ra => Dict.has tier'.data.attrs ra) = fun ra => Dict.has tier.data.attrs ra from funext fun k => ht.1.has k]
      cases hfnd : ras.find? (fun ra => Dict.has tier.data.attrs ra) with
      | none => exact ⟨.nil, rfl⟩
      | some ra =>
        cases ra with
        | nil => exact ⟨.nil, rfl⟩
        | cons c cs =>
          have hra : c :: cs ∈ refs := hras _ (List.mem_of_find?_eq_some hfnd)
          simp only
          rcases Rn.item ht.1 hra with ⟨tid, tid', h1, h2, h3⟩ | ⟨h1, h2⟩
          · obtain ⟨hok, rfl⟩ := h3
            have hids : ∀ i, IdOK i → ids i = [i] := by
              intro i hi
              have := simple_ids (e := ⟨⟨i, none⟩, []⟩) ⟨⟨hi, fun r hr => by cases hr⟩, fun p hp => by cases hp⟩
              simpa [Expr.render, Sel.render, Sel.rangeStr, Expr.ids, Expr.sels] using this
            have d1 : dereference (newIgt allowed x) tier (c :: cs) = .ok (getAny (newIgt allowed x) tid) := by
              simp only [dereference, h1, bind, Except.bind, hids tid hok]
            have d2 : dereference (newIgt allowed y) tier' (c :: cs) = .ok (getAny (newIgt allowed y) (f tid)) := by
              simp only [dereference, h2, bind, Except.bind, hids _ (hf.ok tid hok)]
            rw [d1, d2]
            have hc := contGet_rn (f := f) (refs := refs) hf (Q := LongRn f refs) (fun a b h => ⟨_, h.1.1⟩) hok hg
            have hit := igtGetItem_rn (allowed := allowed) hf h hok
            unfold getAny
            simp only [show (newIgt allowed x).igt = x from rfl, show (newIgt allowed y).igt = y from rfl]
            revert hc
            cases contGet x.kids tid <;> cases contGet y.kids (f tid) <;> intro hc
            · simp only
              revert hit
              unfold igtGetItem
              cases Dict.get? (newIgt allowed x).itemdict (some tid) <;> cases Dict.get? (newIgt allowed y).itemdict (some (f tid)) <;> intro hit
              · exact ⟨.nil, rfl⟩
              · exact hit.elim
              · exact hit.elim
              · exact ⟨.nil, rfl⟩
            · exact hc.elim
            · exact hc.elim
            · rename_i r r'
              have hits := refItems_rn hf hc.1 hra hi
              have hst : StepRn f refs { src := tier, ra := c :: cs, tgt := r, items := refItems (c :: cs) items r }
                { src := tier', ra := c :: cs, tgt := r', items := refItems (c :: cs) items' r' } := ⟨ht, rfl, hc.1, hits⟩
              have hvr := hv r r' hc
              simp only
              by_cases hin : r.data.id ∈ v
              · rw [if_pos hin, if_pos (hvr.2 hin)]
                exact ⟨.cons hst .nil, rfl⟩
              · rw [if_neg hin, if_neg fun h' => hin (hvr.1 h')]
                rw [hc.1.1.id]
                cases hid : r.data.id with
                | none => exact ⟨.cons hst .nil, rfl⟩
                | some s =>
                  simp only [Option.map]
                  obtain ⟨q1, q2⟩ := ih (v ++ s.map fun ch => some [ch]) (v' ++ (f s).map fun ch => some [ch]) r r' _ _ (by
                    intro t t' htt
                    have n1 : t.data.id ∉ s.map fun ch => some [ch] := by
                      intro hm
                      obtain ⟨ch, -, e⟩ := List.mem_map.1 hm
                      exact (htt.2 ch).1 e.symm
                    have n2 : t'.data.id ∉ (f s).map fun ch => some [ch] := by
                      intro hm
                      obtain ⟨ch, -, e⟩ := List.mem_map.1 hm
                      exact (htt.2 ch).2 e.symm
                    rw [List.mem_append, List.mem_append]
                    simp only [n1, n2, or_false]
                    exact hv t t' htt) hc.1 hits
                  exact ⟨.cons hst q1, q2⟩
          · have d1 : dereference (newIgt allowed x) tier (c :: cs) = .error .keyError := by simp only [dereference, h1, bind, Except.bind]
            have d2 : dereference (newIgt allowed y) tier' (c :: cs) = .error .keyError := by simp only [dereference, h2, bind, Except.bind]
            rw [d1, d2]
            exact ⟨.nil, rfl⟩
  refine main n _ _ _ _ _ _ (fun t t' htt => ?_) ht hi
  rw [List.mem_singleton, List.mem_singleton, htt.1.1.id, ht.1.id]
  constructor
  · intro e
    cases h1 : t.data.id <;> cases h2 : tier.data.id <;> rw [h1, h2] at e
    · cases e
    · cases e
    · simp only [Option.map, Option.some.injEq] at e
      rw [hf.inj _ _ (htt.1.1.ok _ h1) (ht.1.ok _ h2) e]
  · intro e; rw [e]

end

section
attribute [local instance] asciiUni

/-- other IDs: the same after `x` -/
def addX (s : Str) : Str := 'x' :: s

theorem addX_renames : Renames addX := by
  refine ⟨fun i h => ?_, fun i j _ _ e => by injection e⟩
  obtain ⟨c, cs, rfl, h1, h2⟩ := h
  refine ⟨'x', c :: cs, rfl, by decide, fun a ha => ?_⟩
  rcases List.mem_cons.1 ha with rfl | ha
  · exact isLetter_idChar h1
  · exact h2 a ha

/-- a word with text and two morphemes that select parts of it; the IDs after `p` -/
def exRnIgt (p : String) : Obj := mkIgt [
  mkTier (p ++ "w") [] [.mk { cls := .item, id := some (p ++ "w1").toList, text := some "words".toList } [] []],
  mkTier (p ++ "m") [("segmentation", p ++ "w")] [mkItem (p ++ "m1") [("segmentation", p ++ "w1[0:4]")],
    mkItem (p ++ "m2") [("segmentation", p ++ "w1[4:5]+" ++ p ++ "w1[0:1]")]]]

theorem attrsRn_one {R : Str → Str → Prop} {refs : List Str} {k v v' : Str} (h : R v v') (hk : k ∈ refs) : AttrsRn refs R [(k, v)] [(k, v')] := by
  intro j
  simp only [Dict.get?]
  split
  · next e => exact ⟨fun _ => h, fun hn => absurd (e ▸ hk) hn⟩
  · trivial

theorem idOK_ascii {s : Str} (h : (match s with | [] => false | c :: cs => letter c && cs.all idChar) = true) : IdOK s := by
  cases s with
  | nil => cases h
  | cons c cs =>
    simp only [Bool.and_eq_true, List.all_eq_true] at h
    exact ⟨c, cs, rfl, h.1, h.2⟩

def exRnNum (c : Char) : Num := ⟨false, [c]⟩
def exRnSel (i : String) (a b : Char) : Sel := ⟨i.toList, some ⟨⟨exRnNum a, exRnNum b⟩, []⟩⟩
theorem exRnNum_ok (c : Char) (h : (Uni.digit c).isSome = true) : (exRnNum c).OK := by
  refine ⟨by simp [exRnNum], fun x hx => ?_⟩
  simp only [exRnNum, List.mem_singleton] at hx
  rw [hx]; exact h
theorem exRnSel_ok (i : String) (a b : Char) (hi : IdOK i.toList) (ha : (Uni.digit a).isSome = true) (hb : (Uni.digit b).isSome = true) : (exRnSel i a b).OK :=
  ⟨hi, fun r hr => by cases hr; exact ⟨⟨exRnNum_ok a ha, exRnNum_ok b hb⟩, by simp⟩⟩

/-- the hypotheses of the theorems hold of an igt with spans -/
theorem exRnIgt_rn : IgtRn addX [ALIGNMENT, CONTENT, SEGMENTATION] (exRnIgt "") (exRnIgt "x") := by
  have hid : ∀ {s : Str}, (match s with | [] => false | c :: cs => letter c && cs.all idChar) = true →
      ∀ i, some s = some i → IdOK i := by
    intro s h i e
    cases e
    exact idOK_ascii h
  refine .cons ⟨⟨hid (s := "w".toList) (by decide +kernel), rfl, rfl, rfl, fun k => by trivial⟩,
      .cons ⟨hid (s := "w1".toList) (by decide +kernel), rfl, rfl, rfl, fun k => by trivial⟩ .nil⟩
    (.cons ⟨⟨hid (s := "m".toList) (by decide +kernel), rfl, rfl, rfl, attrsRn_one (k := "segmentation".toList) ⟨idOK_ascii (s := "w".toList) (by decide +kernel), rfl⟩ (by decide +kernel)⟩,
      .cons ⟨hid (s := "m1".toList) (by decide +kernel), rfl, rfl, rfl, attrsRn_one (k := "segmentation".toList) ?_ (by decide +kernel)⟩
        (.cons ⟨hid (s := "m2".toList) (by decide +kernel), rfl, rfl, rfl, attrsRn_one (k := "segmentation".toList) ?_ (by decide +kernel)⟩ .nil)⟩ .nil)
  · refine ⟨⟨exRnSel "w1" '0' '4', []⟩, ⟨exRnSel_ok _ _ _ (idOK_ascii (by decide +kernel)) (by decide +kernel) (by decide +kernel), by simp⟩, by decide +kernel, by decide +kernel⟩
  · refine ⟨⟨exRnSel "w1" '4' '5', [(['+'], exRnSel "w1" '0' '1')]⟩,
      ⟨exRnSel_ok _ _ _ (idOK_ascii (by decide +kernel)) (by decide +kernel) (by decide +kernel), fun p hp => ?_⟩, by decide +kernel, by decide +kernel⟩
    rw [List.mem_singleton] at hp
    subst hp
    exact ⟨⟨'+', rfl, by unfold DelimOK; decide +kernel⟩, exRnSel_ok _ _ _ (idOK_ascii (by decide +kernel)) (by decide +kernel) (by decide +kernel)⟩

/-- and that of `C142_ancestors_partial` of the same with longer IDs -/
theorem exRnIgt_long : Pairs2 (LongRn addX [ALIGNMENT, CONTENT, SEGMENTATION]) (exRnIgt "a").kids (exRnIgt "xa").kids := by
  have hid : ∀ {s : Str}, (match s with | [] => false | c :: cs => letter c && cs.all idChar) = true →
      ∀ i, some s = some i → IdOK i := by
    intro s h i e
    cases e
    exact idOK_ascii h
  refine .cons ⟨⟨⟨hid (s := "aw".toList) (by decide +kernel), rfl, rfl, rfl, fun k => by trivial⟩,
      .cons ⟨hid (s := "aw1".toList) (by decide +kernel), rfl, rfl, rfl, fun k => by trivial⟩ .nil⟩, fun c => ⟨(fun h => by cases h), (fun h => by cases h)⟩⟩
    (.cons ⟨⟨⟨hid (s := "am".toList) (by decide +kernel), rfl, rfl, rfl, attrsRn_one (k := "segmentation".toList) ⟨idOK_ascii (s := "aw".toList) (by decide +kernel), rfl⟩ (by decide +kernel)⟩,
      .cons ⟨hid (s := "am1".toList) (by decide +kernel), rfl, rfl, rfl, attrsRn_one (k := "segmentation".toList) ?_ (by decide +kernel)⟩
        (.cons ⟨hid (s := "am2".toList) (by decide +kernel), rfl, rfl, rfl, attrsRn_one (k := "segmentation".toList) ?_ (by decide +kernel)⟩ .nil)⟩, fun c => ⟨(fun h => by cases h), (fun h => by cases h)⟩⟩ .nil)
  · refine ⟨⟨exRnSel "aw1" '0' '4', []⟩, ⟨exRnSel_ok _ _ _ (idOK_ascii (by decide +kernel)) (by decide +kernel) (by decide +kernel), by simp⟩, by decide +kernel, by decide +kernel⟩
  · refine ⟨⟨exRnSel "aw1" '4' '5', [(['+'], exRnSel "aw1" '0' '1')]⟩,
      ⟨exRnSel_ok _ _ _ (idOK_ascii (by decide +kernel)) (by decide +kernel) (by decide +kernel), fun p hp => ?_⟩, by decide +kernel, by decide +kernel⟩
    rw [List.mem_singleton] at hp
    subst hp
    exact ⟨⟨'+', rfl, by unfold DelimOK; decide +kernel⟩, exRnSel_ok _ _ _ (idOK_ascii (by decide +kernel)) (by decide +kernel) (by decide +kernel)⟩

example : ByType stdAllowed ∧ ∀ e, ∀ ra ∈ stdAllowed e, ra ∈ [ALIGNMENT, CONTENT, SEGMENTATION] := ⟨stdAllowed_byType, fun _ _ h => h⟩

/-- what `C142_value` and `C142_references` say of it is not trivial -/
example : (∃ t i, (exRnIgt "x").kids[1]? = some t ∧ t.kids[1]? = some i ∧ value 9 (some (exRnIgt "x")) (some t) i = .ok (some "sw".toList)) ∧
    igtReferrers stdAllowed (newIgt stdAllowed (exRnIgt "x")) "xw1".toList none =
      .ok [(SEGMENTATION, ["xm1".toList, "xm2".toList, "xm2".toList])] :=
  ⟨⟨_, _, rfl, rfl, by decide +kernel⟩, by decide +kernel⟩

/-- three tiers, each of which refers to the next -/
def exRnChain (a b c d : String) : Obj :=
  mkIgt [mkTier a [("segmentation", b)] [], mkTier b [("segmentation", c)] [], mkTier c [("segmentation", d)] [], mkTier d [] []]

/-- `ancestors()` depends on names: of the tiers `zz`, `ab`, `a`, `q`, each of which refers to the next, it finds two from
the first on, because `a` is a character of the ID before; of the same with other names it finds all three. -/
theorem C142_refuted : ∃ (f : Str → Str) (x y : Obj) (t t' : Obj), Renames f ∧ IgtRn f [ALIGNMENT, CONTENT, SEGMENTATION] x y ∧
    x.kids[0]? = some t ∧ y.kids[0]? = some t' ∧
    ∀ n, 4 ≤ n → (ancestors (newIgt stdAllowed x) [ALIGNMENT, SEGMENTATION] n t []).1.length = 2 ∧
      (ancestors (newIgt stdAllowed y) [ALIGNMENT, SEGMENTATION] n t' []).1.length = 3 := by
  have hid : ∀ {s : Str}, (match s with | [] => false | c :: cs => letter c && cs.all idChar) = true →
      ∀ i, some s = some i → IdOK i := by
    intro s h i e
    cases e
    exact idOK_ascii h
  refine ⟨addX, exRnChain "zz" "ab" "a" "q", exRnChain "xzz" "xab" "xa" "xq", mkTier "zz" [("segmentation", "ab")] [],
    mkTier "xzz" [("segmentation", "xab")] [], addX_renames, ?_, rfl, rfl, fun n hn => ?_⟩
  · exact .cons ⟨⟨hid (s := "zz".toList) (by decide +kernel), rfl, rfl, rfl, attrsRn_one (k := "segmentation".toList) ⟨idOK_ascii (s := "ab".toList) (by decide +kernel), rfl⟩ (by decide +kernel)⟩, .nil⟩
      (.cons ⟨⟨hid (s := "ab".toList) (by decide +kernel), rfl, rfl, rfl, attrsRn_one (k := "segmentation".toList) ⟨idOK_ascii (s := "a".toList) (by decide +kernel), rfl⟩ (by decide +kernel)⟩, .nil⟩
      (.cons ⟨⟨hid (s := "a".toList) (by decide +kernel), rfl, rfl, rfl, attrsRn_one (k := "segmentation".toList) ⟨idOK_ascii (s := "q".toList) (by decide +kernel), rfl⟩ (by decide +kernel)⟩, .nil⟩
      (.cons ⟨⟨hid (s := "q".toList) (by decide +kernel), rfl, rfl, rfl, fun k => by trivial⟩, .nil⟩ .nil)))
  · obtain ⟨m, rfl⟩ : ∃ m, n = m + 4 := ⟨n - 4, by omega⟩
    exact ⟨rfl, rfl⟩

end
end Xigt
