import Verif.Igt.RefModel
import Verif.Igt.RefProps
import Verif.Equality.Props
import Verif.Attr.Model
import Verif.DictLemmas
import Verif.Attr.Props
import Verif.Tree.WfCheck
/- C132: equal igts answer alike. -/

set_option linter.unusedSectionVars false

namespace Xigt

section
variable [Uni]

/-- the same data (C10), in a well-formed object -/
def Sm (x y : Obj) : Prop := SameData x y ∧ x.WF

/-- the same data at the same places -/
def SmL (l l' : List Obj) : Prop := l.length = l'.length ∧ ∀ (i : Nat) x y, l[i]? = some x → l'[i]? = some y → Sm x y

/-- none and none, or two with the same data -/
def SmO : Option Obj → Option Obj → Prop
  | none, none => True
  | some x, some y => Sm x y
  | _, _ => False

theorem Sm.id {x y : Obj} (h : Sm x y) : x.data.id = y.data.id := by
  obtain ⟨h, -⟩ := h; cases h; assumption

theorem Sm.type {x y : Obj} (h : Sm x y) : x.data.type = y.data.type := by
  obtain ⟨h, -⟩ := h; cases h; assumption

theorem Sm.text {x y : Obj} (h : Sm x y) : x.data.text = y.data.text := by
  obtain ⟨h, -⟩ := h; cases h; assumption

theorem Sm.attr {x y : Obj} (h : Sm x y) (k : Str) : Dict.get? x.data.attrs k = Dict.get? y.data.attrs k := by
  obtain ⟨h, hw⟩ := h
  cases h with
  | mk _ _ _ _ _ _ hp _ _ _ _ =>
    cases hw with
    | mk hw _ _ _ _ _ _ _ =>
      have hw' : Dict.WF _ := (hp.map Prod.fst).nodup_iff.1 hw
      simp only [Obj.data_mk]
      cases hk : Dict.get? _ k with
      | some v => exact (Dict.get?_of_mem hw' (hp.mem_iff.1 (Dict.get?_mem hk))).symm
      | none =>
        symm
        rw [Dict.get?_eq_none_iff] at hk ⊢
        intro hm
        exact hk ((hp.map Prod.fst).mem_iff.2 hm)

theorem Sm.kids {x y : Obj} (h : Sm x y) : SmL x.kids y.kids := by
  obtain ⟨h, hw⟩ := h
  cases h with
  | mk _ _ _ _ _ _ _ _ hl _ hk =>
    cases hw with
    | mk _ _ _ _ _ _ _ hw => exact ⟨hl, fun i x y hx hy => ⟨hk i x y hx hy, hw x (List.mem_of_getElem? hx)⟩⟩

theorem SmL.cons {x y : Obj} {l l' : List Obj} (h : SmL (x :: l) (y :: l')) : Sm x y ∧ SmL l l' :=
  ⟨h.2 0 x y rfl rfl, by simpa using h.1, fun i a b ha hb => h.2 (i + 1) a b (by simpa using ha) (by simpa using hb)⟩

theorem SmL.induct {P : List Obj → List Obj → Prop} (hn : P [] []) (hc : ∀ x y l l', Sm x y → SmL l l' → P l l' → P (x :: l) (y :: l')) :
    ∀ l l', SmL l l' → P l l' := by
  intro l
  induction l with
  | nil =>
    intro l' h
    have : l' = [] := List.length_eq_zero_iff.1 h.1.symm
    subst this; exact hn
  | cons x l ih =>
    intro l' h
    cases l' with
    | nil => exact absurd h.1 (by simp)
    | cons y l' => obtain ⟨h1, h2⟩ := h.cons; exact hc x y l l' h1 h2 (ih l' h2)

theorem getElem?_same {l l' : List Obj} (h : SmL l l') (n : Nat) : SmO (l[n]?) (l'[n]?) := by
  have hl := h.1
  cases hx : l[n]? with
  | none =>
    have : l'[n]? = none := by rw [List.getElem?_eq_none_iff] at hx ⊢; omega
    rw [this]; trivial
  | some x =>
    have hn := (List.getElem?_eq_some_iff.1 hx).1
    have : l'[n]? = some (l'[n]'(by omega)) := List.getElem?_eq_getElem (by omega)
    rw [this]
    exact h.2 n _ _ hx this

theorem find_same (s : Str) : ∀ l l', SmL l l' → SmO (l.find? fun x => decide (x.data.id = some s)) (l'.find? fun x => decide (x.data.id = some s)) := by
  refine SmL.induct trivial fun x y l l' hxy _ ih => ?_
  rw [List.find?_cons, List.find?_cons, hxy.id]
  split
  · exact hxy
  · exact ih

theorem contItem_same {l l' : List Obj} (h : SmL l l') (s : Str) :
    (∃ x y, contItem l s = .ok x ∧ contItem l' s = .ok y ∧ Sm x y) ∨ ∃ e, contItem l s = .error e ∧ contItem l' s = .error e := by
  have hf := find_same s l l' h
  unfold contItem
  cases hx : l.find? fun x => decide (x.data.id = some s) <;> cases hy : l'.find? fun x => decide (x.data.id = some s) <;>
    rw [hx, hy] at hf <;> first | exact hf.elim | skip
  · simp only
    cases pyInt s with
    | error e => exact .inr ⟨_, rfl, rfl⟩
    | ok i =>
      simp only [pyGet]
      rw [← h.1]
      cases pyIdx l.length i with
      | none => exact .inr ⟨_, rfl, rfl⟩
      | some n =>
        have hg := getElem?_same h n
        simp only
        cases hx : l[n]? <;> cases hy : l'[n]? <;> rw [hx, hy] at hg
        · exact .inr ⟨_, rfl, rfl⟩
        · exact hg.elim
        · exact hg.elim
        · exact .inl ⟨_, _, rfl, rfl, hg⟩
  · exact .inl ⟨_, _, rfl, rfl, hf⟩

theorem contGet_same {l l' : List Obj} (h : SmL l l') (s : Str) : SmO (contGet l s) (contGet l' s) := by
  have e : ∀ l, contGet l s = (contItem l s).toOption := by
    intro l
    unfold contGet contItem
    split
    · rfl
    · split <;> rfl
  rw [e, e]
  rcases contItem_same h s with ⟨x, y, h1, h2, h3⟩ | ⟨e, h1, h2⟩ <;> rw [h1, h2]
  · exact h3
  · trivial

theorem getItem_same {x y : Obj} (h : Sm x y) (k : Str) : Dict.getItem x.data.attrs k = Dict.getItem y.data.attrs k := by
  simp only [Dict.getItem, h.attr k]

theorem resolveRef_same {val val' : Obj → Obj → Py (Option Str)} {igt igt' tier tier' : Option Obj} {item item' : Obj}
    (hv : ∀ t t' i i', Sm t t' → Sm i i' → val t i = val' t' i') (hg : SmO igt igt') (ht : SmO tier tier') (hi : Sm item item') (ra : Str) :
    resolveRef val igt tier item ra = resolveRef val' igt' tier' item' ra := by
  unfold resolveRef
  rw [getItem_same hi]
  cases Dict.getItem item'.data.attrs ra with
  | error e => rfl
  | ok expr =>
    simp only [bind, Except.bind]
    cases tier <;> cases tier' <;> first | exact ht.elim | skip
    · rfl
    · rename_i t t'
      simp only
      rw [getItem_same (show Sm t t' from ht)]
      cases Dict.getItem t'.data.attrs ra with
      | error e => rfl
      | ok tid =>
        simp only
        cases igt <;> cases igt' <;> first | exact hg.elim | skip
        · rfl
        · rename_i g g'
          simp only
          have hc := contGet_same (Sm.kids (show Sm g g' from hg)) tid
          cases h1 : contGet g.kids tid <;> cases h2 : contGet g'.kids tid <;> simp only [h1, h2] at hc ⊢
          · exact False.elim hc
          · exact False.elim hc
          · rename_i r r'
            congr 1
            funext i
            have hd := contGet_same (Sm.kids (show Sm r r' from hc)) i
            cases g1 : contGet r.kids i <;> cases g2 : contGet r'.kids i <;> simp only [g1, g2] at hd ⊢
            · rfl
            · exact False.elim hd
            · exact False.elim hd
            · simp only [Option.map]
              rw [hv r r' _ _ hc hd]

theorem value_same : ∀ (n : Nat) (igt igt' tier tier' : Option Obj) (item item' : Obj), SmO igt igt' → SmO tier tier' → Sm item item' →
    value n igt tier item = value n igt' tier' item' := by
  intro n
  induction n with
  | zero => intros; rfl
  | succ n ih =>
    intro igt igt' tier tier' item item' hg ht hi
    simp only [value, hi.text]
    cases item'.data.text with
    | some t => rfl
    | none =>
      simp only
      have hr : resolveRef (fun t i => value n igt (some t) i) igt tier item = resolveRef (fun t i => value n igt' (some t) i) igt' tier' item' := by
        funext ra
        exact resolveRef_same (fun t t' i i' h1 h2 => ih igt igt' (some t) (some t') i i' hg h1 h2) hg ht hi ra
      rw [hr]
      have : ∀ (f : Str → Py Str) ras, valueBy f item ras = valueBy f item' ras := by
        intro f ras
        induction ras with
        | nil => rfl
        | cons ra ras ih' => simp only [valueBy, Dict.has, hi.attr ra, ih']; rfl
      rw [this]

/-! ### References -/

theorem attr0_same {x y : Obj} (h : Sm x y) (ra : Str) : attr0 x ra = attr0 y ra := by simp only [attr0, h.attr ra]

theorem raMap_same {x y : Obj} (h : Sm x y) (ras : List Str) : raMap x ras = raMap y ras := by
  have : (fun (m : Dict Str (List Str)) ra => Dict.set m ra (ids (attr0 x ra))) = fun m ra => Dict.set m ra (ids (attr0 y ra)) := by
    funext m ra; rw [attr0_same h]
  simp only [raMap, this]

/-- entries with the same data -/
def SmE (e e' : Entry) : Prop := SmO e.tier e'.tier ∧ Sm e.obj e'.obj

/-- which reference attributes are allowed is decided by the types of the object and of its tier
(model.py:304-309, 412-419) -/
def ByType (allowed : Entry → List Str) : Prop := ∀ e e', e.obj.data.type = e'.obj.data.type →
  e.tier.map (fun t => t.data.type) = e'.tier.map (fun t => t.data.type) → allowed e = allowed e'

theorem ByType.same {allowed : Entry → List Str} (h : ByType allowed) {e e' : Entry} (he : SmE e e') : allowed e = allowed e' := by
  refine h e e' he.2.type ?_
  have := he.1
  cases h1 : e.tier <;> cases h2 : e'.tier <;> rw [h1, h2] at this
  · exact False.elim this
  · exact False.elim this
  · simp only [Option.map, Sm.type this]

/-- lists related element by element -/
inductive Pairs2 {α : Type} (R : α → α → Prop) : List α → List α → Prop
  | nil : Pairs2 R [] []
  | cons {x y l l'} : R x y → Pairs2 R l l' → Pairs2 R (x :: l) (y :: l')

theorem Pairs2.append {α : Type} {R : α → α → Prop} {a a' b b' : List α} (h : Pairs2 R a a') (g : Pairs2 R b b') : Pairs2 R (a ++ b) (a' ++ b') := by
  induction h with
  | nil => exact g
  | cons h _ ih => exact .cons h ih

theorem Pairs2.foldl {α β : Type} {R : α → α → Prop} {f f' : β → α → β} (hf : ∀ b x y, R x y → f b x = f' b y) {l l' : List α} (h : Pairs2 R l l') :
    ∀ b, l.foldl f b = l'.foldl f' b := by
  induction h with
  | nil => intro b; rfl
  | cons h _ ih => intro b; rw [List.foldl_cons, List.foldl_cons, hf _ _ _ h, ih]

theorem tierEntries_same {x y : Obj} (h : Sm x y) : Pairs2 SmE (tierEntries x) (tierEntries y) := by
  unfold tierEntries
  exact SmL.induct (P := fun l l' => Pairs2 SmE (l.map fun t => { tier := none, obj := t }) (l'.map fun t => { tier := none, obj := t })) .nil
    (fun a b l l' hab _ ih => .cons ⟨trivial, hab⟩ ih) _ _ h.kids

theorem itemNodes_same {x y : Obj} (h : Sm x y) : Pairs2 (fun n n' => Sm n.1 n'.1 ∧ Sm n.2 n'.2) (itemNodes x) (itemNodes y) := by
  unfold itemNodes
  refine SmL.induct (P := fun l l' => Pairs2 (fun n n' : Obj × Obj => Sm n.1 n'.1 ∧ Sm n.2 n'.2)
    (l.flatMap fun t => t.kids.map fun i => (t, i)) (l'.flatMap fun t => t.kids.map fun i => (t, i))) .nil
    (fun a b l l' hab _ ih => ?_) _ _ h.kids
  rw [List.flatMap_cons, List.flatMap_cons]
  refine Pairs2.append ?_ ih
  exact SmL.induct (P := fun l l' => Pairs2 (fun n n' : Obj × Obj => Sm n.1 n'.1 ∧ Sm n.2 n'.2) (l.map fun i => (a, i)) (l'.map fun i => (b, i))) .nil
    (fun c d l l' hcd _ ih => .cons ⟨hab, hcd⟩ ih) _ _ hab.kids

theorem itemEntries_same {x y : Obj} (h : Sm x y) : Pairs2 SmE (itemEntries x) (itemEntries y) := by
  unfold itemEntries
  have := itemNodes_same h
  revert this
  generalize itemNodes x = l
  generalize itemNodes y = l'
  intro this
  induction this with
  | nil => exact .nil
  | cons h _ ih => exact .cons ⟨h.1, h.2⟩ ih

/-- pairs of a tier and an item with the same data -/
def SmN : Option (Obj × Obj) → Option (Obj × Obj) → Prop
  | none, none => True
  | some n, some n' => Sm n.1 n'.1 ∧ Sm n.2 n'.2
  | _, _ => False

theorem refreshItems_same {l l' : List (Obj × Obj)} (h : Pairs2 (fun n n' => Sm n.1 n'.1 ∧ Sm n.2 n'.2) l l') :
    ∀ (d d' : Dict (Option Str) (Obj × Obj)), (∀ k, SmN (Dict.get? d k) (Dict.get? d' k)) →
      ∀ k, SmN (Dict.get? (refreshItems d l) k) (Dict.get? (refreshItems d' l') k) := by
  induction h with
  | nil => intro d d' h; exact h
  | @cons n n' l l' hn _ ih =>
    intro d d' h
    refine ih _ _ fun k => ?_
    simp only [← hn.2.id]
    rw [Dict.get?_set, Dict.get?_set]
    split
    · exact hn
    · exact h k

theorem C132_same (x y : Obj) (hs : Sm x y) (allowed : Entry → List Str) (hal : ByType allowed) :
    (∀ (n a b : Nat) t t' i i', x.kids[a]? = some t → y.kids[a]? = some t' → t.kids[b]? = some i → t'.kids[b]? = some i' →
      value n (some x) (some t) i = value n (some y) (some t') i') ∧
    (∀ s ras, igtReferents allowed (newIgt allowed x) s ras = igtReferents allowed (newIgt allowed y) s ras) ∧
    (∀ s ras, igtReferrers allowed (newIgt allowed x) s ras = igtReferrers allowed (newIgt allowed y) s ras) ∧
    (∀ s ras, referents allowed (newIgt allowed x) s ras = referents allowed (newIgt allowed y) s ras) ∧
    (∀ s ras, referrers allowed (newIgt allowed x) s ras = referrers allowed (newIgt allowed y) s ras) := by
  have hm : idsMap allowed (tierEntries x ++ itemEntries x) = idsMap allowed (tierEntries y ++ itemEntries y) := by
    unfold idsMap
    refine Pairs2.foldl (R := SmE) (fun m e e' h => ?_) ((tierEntries_same hs).append (itemEntries_same hs)) []
    have : e.id = e'.id := h.2.id
    rw [this, hal.same h, raMap_same h.2]
  have hi : ∀ k, SmN (Dict.get? (newIgt allowed x).itemdict k) (Dict.get? (newIgt allowed y).itemdict k) :=
    refreshItems_same (itemNodes_same hs) [] [] fun k => trivial
  have hit : ∀ s, (igtGetItem (newIgt allowed x) s = none ∧ igtGetItem (newIgt allowed y) s = none) ∨
      ∃ e e', igtGetItem (newIgt allowed x) s = some e ∧ igtGetItem (newIgt allowed y) s = some e' ∧ SmE e e' := by
    intro s
    have := hi s
    unfold igtGetItem
    cases h1 : Dict.get? (newIgt allowed x).itemdict s <;> cases h2 : Dict.get? (newIgt allowed y).itemdict s <;> rw [h1, h2] at this <;>
      first | exact this.elim | skip
    · exact .inl ⟨rfl, rfl⟩
    · exact .inr ⟨_, _, rfl, rfl, this⟩
  have hrs : ∀ s ras, referents allowed (newIgt allowed x) s ras = referents allowed (newIgt allowed y) s ras := by
    intro s ras
    have hany : (getAny (newIgt allowed x) s = none ∧ getAny (newIgt allowed y) s = none) ∨
        ∃ e e', getAny (newIgt allowed x) s = some e ∧ getAny (newIgt allowed y) s = some e' ∧ SmE e e' := by
      have := contGet_same hs.kids s
      unfold getAny
      change ((match contGet x.kids s with | some t => _ | none => _) = _ ∧ (match contGet y.kids s with | some t => _ | none => _) = _) ∨ _
      cases h1 : contGet x.kids s <;> cases h2 : contGet y.kids s <;> rw [h1, h2] at this <;> first | exact this.elim | skip
      · have := hit (some s)
        simpa [newIgt, refreshIndices, h1, h2] using this
      · refine .inr ?_
        simp only [newIgt, refreshIndices, h1, h2]
        exact ⟨_, _, rfl, rfl, trivial, this⟩
    unfold referents
    rcases hany with ⟨h1, h2⟩ | ⟨e, e', h1, h2, h3⟩ <;> rw [h1, h2]
    simp only
    rw [hal.same h3, raMap_same h3.2]
  have hrr : ∀ s ras, referrers allowed (newIgt allowed x) s ras = referrers allowed (newIgt allowed y) s ras := by
    intro s ras
    have step : ∀ m e e', SmE e e' → referrersObj allowed s ras m e = referrersObj allowed s ras m e' := by
      intro m e e' h
      unfold referrersObj
      have : e.id = e'.id := h.2.id
      rw [this, hal.same h]
      have : referrersAttr s e.obj = referrersAttr s e'.obj := by
        funext oid res ra
        simp only [referrersAttr, attr0_same h.2]
      rw [this]
    have ht := Pairs2.foldl (R := SmE) step (tierEntries_same hs)
    have hie := Pairs2.foldl (R := SmE) step (itemEntries_same hs)
    unfold referrers
    simp only [show (newIgt allowed x).igt = x from rfl, show (newIgt allowed y).igt = y from rfl]
    rw [ht, hie]
    rcases contItem_same hs.kids s with ⟨a, b, h1, h2, -⟩ | ⟨e, h1, h2⟩ <;> rw [h1, h2]
    rcases hit (some s) with ⟨h1, h2⟩ | ⟨e, e', h1, h2, -⟩ <;> rw [h1, h2]
  refine ⟨?_, ?_, ?_, hrs, hrr⟩
  · intro n a b t t' i i' h1 h2 h3 h4
    have hta := hs.kids.2 a t t' h1 h2
    exact value_same n _ _ _ _ i i' hs hta (hta.kids.2 b i i' h3 h4)
  · intro s ras
    cases ras with
    | some ras => exact hrs s (some ras)
    | none => simp only [igtReferents, newIgt, refreshIndices, hm]
  · intro s ras
    cases ras with
    | some ras => exact hrr s (some ras)
    | none => simp only [igtReferrers, newIgt, refreshIndices, hm]

/-- **C132**: two new igts that are equal (`==`): items at the same places have the same value or
raise the same exception, and references asked for by ID, with or without attributes, are the same.
(`==` is C10.) -/
theorem C132_partial (x y : Obj) (hx : x.WF) (hy : y.WF) (hc : x.cls = y.cls) (he : Obj.eq x y = true)
    (allowed : Entry → List Str) (hal : ByType allowed) :
    (∀ (n a b : Nat) t t' i i', x.kids[a]? = some t → y.kids[a]? = some t' → t.kids[b]? = some i → t'.kids[b]? = some i' →
      value n (some x) (some t) i = value n (some y) (some t') i') ∧
    (∀ s ras, igtReferents allowed (newIgt allowed x) s ras = igtReferents allowed (newIgt allowed y) s ras) ∧
    (∀ s ras, igtReferrers allowed (newIgt allowed x) s ras = igtReferrers allowed (newIgt allowed y) s ras) ∧
    (∀ s ras, referents allowed (newIgt allowed x) s ras = referents allowed (newIgt allowed y) s ras) ∧
    (∀ s ras, referrers allowed (newIgt allowed x) s ras = referrers allowed (newIgt allowed y) s ras) :=
  C132_same x y ⟨(C10_eq_is_same_data x y hx hy hc).1 he, hx⟩ allowed hal

theorem qualify_full (m : Dict Str Str) (key : Str) (h : key.head? = some '{' ∨ ':' ∉ key) : qualify m key none = .ok key := by
  unfold qualify
  rcases h with h | h
  · rw [if_pos h]
  · have : (if key.head? = some '{' then none else splitOnce ':' key) = none := by
      split
      · rfl
      · exact splitOnce_none h
    rw [this]

/-- **C132**, attributes: of equal objects in equal parents (object, parent, parent's parent, ...),
attributes asked for by the full key (`{uri}name`, or a name without prefix) are the same. -/
theorem C132_attribute_partial (key : Str) (hk : key.head? = some '{' ∨ ':' ∉ key) (default : Option Str) (inherit : Bool) :
    ∀ c c' : List Obj, c.length = c'.length → (∀ (i : Nat) x y, c[i]? = some x → c'[i]? = some y → x.WF ∧ y.WF ∧ x.cls = y.cls ∧ Obj.eq x y = true) →
      getAttribute c key default inherit none = getAttribute c' key default inherit none := by
  intro c
  induction c with
  | nil => intro c' hl _; rw [List.length_eq_zero_iff.1 hl.symm]
  | cons x c ih =>
    intro c' hl h
    cases c' with
    | nil => exact absurd hl (by simp)
    | cons y c' =>
      obtain ⟨hx, hy, hc, he⟩ := h 0 x y rfl rfl
      have hs : Sm x y := ⟨(C10_eq_is_same_data x y hx hy hc).1 he, hx⟩
      have hi := ih c' (by simpa using hl) fun i a b ha hb => h (i + 1) a b (by simpa using ha) (by simpa using hb)
      have hn : c ≠ [] ↔ c' ≠ [] := by
        simp only [List.length_cons, Nat.add_right_cancel_iff] at hl
        rw [← List.length_pos_iff, ← List.length_pos_iff, hl]
      unfold getAttribute
      simp only [qualify_full _ key hk, hs.attr key, hn, hi]

theorem stdAllowed_byType : ByType stdAllowed := fun _ _ _ _ => rfl

end

section
attribute [local instance] asciiUni

/-- a tier of words and a tier of morphemes; attributes in the order given by `r` -/
def exAlike (r : List (String × String) → List (String × String)) : Obj :=
  mkIgt [mkTier "w" [] [mkItem "w1" []], mkTier "m" (r [("a", "1"), ("segmentation", "w")]) [mkItem "m1" (r [("b", "2"), ("segmentation", "w1")])]]

example : exAlike (fun l => l) ≠ exAlike List.reverse ∧ Obj.eq (exAlike fun l => l) (exAlike List.reverse) = true := by
  refine ⟨fun h => ?_, by decide +kernel⟩
  have : (exAlike fun l => l).kids.map (fun t => t.data.attrs) = (exAlike List.reverse).kids.map (fun t => t.data.attrs) := by rw [h]
  revert this; decide +kernel
example : (exAlike fun l => l).WF ∧ (exAlike List.reverse).WF := by
  constructor <;> exact wf_of_B (n := 9) (by decide +kernel)
example : igtReferrers stdAllowed (newIgt stdAllowed (exAlike List.reverse)) "w1".toList none = .ok [(SEGMENTATION, ["m1".toList])] := by decide +kernel

/-- C132 fails for attributes asked for by prefix: equality ignores the prefixes. -/
theorem C132_refuted : ∃ x y : Obj, x.WF ∧ y.WF ∧ x.cls = y.cls ∧ Obj.eq x y = true ∧
    getAttribute [x] "p:a".toList none false none ≠ getAttribute [y] "p:a".toList none false none :=
  ⟨.mk { cls := .tier, nsmap := some [("p".toList, "u".toList)], attrs := [("{u}a".toList, "1".toList)] } [] [],
    .mk { cls := .tier, nsmap := some [("q".toList, "u".toList)], attrs := [("{u}a".toList, "1".toList)] } [] [],
    wf_of_B (n := 9) (by decide +kernel), wf_of_B (n := 9) (by decide +kernel), rfl, by decide +kernel, by decide +kernel⟩

end
end Xigt
