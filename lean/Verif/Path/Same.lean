import Verif.Path.Tokens
import Verif.Igt.Keep
import Verif.Scripts.QueryModel
import Verif.Path.Examples
/- C143: paths find the same in equal corpora. -/

set_option linter.unusedSectionVars false

namespace Xigt.XP

section
variable [Uni]

/-! ### Spec -/

/-- the namespace map of an object whose parent has the map `m` -/
def ownNs (x : Obj) (m : Dict Str Str) : Dict Str Str := x.data.nsmap.getD m

/-- Objects whose parents have the maps `m` and `m'`: every prefix stands for the same, the attributes are in the same order, and
so within them. -/
inductive Alike : Dict Str Str → Dict Str Str → Obj → Obj → Prop
  | mk {m m' : Dict Str Str} {x y : Obj} : (∀ p, Dict.get? (ownNs x m) p = Dict.get? (ownNs y m') p) →
      x.data.attrs = y.data.attrs →
      (∀ (i : Nat) a b, x.md[i]? = some a → y.md[i]? = some b → Alike (ownNs x m) (ownNs y m') a b) →
      (∀ (i : Nat) a b, x.kids[i]? = some a → y.kids[i]? = some b → Alike (ownNs x m) (ownNs y m') a b) → Alike m m' x y

/-- the same data (C10) and, if `b`, the same namespaces and order -/
def KidR (b : Bool) (m m' : Dict Str Str) (x y : Obj) : Prop := Sm x y ∧ (b = true → Alike m m' x y)

/-- an object, its parent, and so on -/
inductive ChainR (b : Bool) : List Obj → List Obj → Prop
  | nil : ChainR b [] []
  | cons {x y up up'} : KidR b (nsmapOf up) (nsmapOf up') x y → ChainR b up up' → ChainR b (x :: up) (y :: up')

/-- results that are the same: equal objects in equal ones, equal strings, None, or equal objects in lists -/
inductive PvR (b : Bool) : PV → PV → Prop
  | node {x y up up'} : ChainR b (x :: up) (y :: up') → PvR b (.node x up) (.node y up')
  | str (s) : PvR b (.str s) (.str s)
  | none : PvR b .none .none
  | list {l l'} : Pairs2 Sm l l' → PvR b (.list l) (.list l')

/-- both a result, or both the same exception -/
def PyR {α : Type} (R : α → α → Prop) : Py α → Py α → Prop
  | .ok a, .ok b => R a b
  | .error e, .error e' => e = e'
  | _, _ => False

/-- Unless `b`: a path that does not depend on prefixes nor on the order of attributes (`@*`).  (It may have the
characters in other places, but is not considered then.) -/
def Neutral (b : Bool) (path : Str) : Prop := b = false → ':' ∉ path ∧ ('@' ∉ path ∨ '*' ∉ path)

/-- generators that yield the same and end in the same way -/
def GenR (b : Bool) (g g' : Gen) : Prop := Pairs2 (PvR b) g.vals g'.vals ∧ g.err = g'.err

/-! ### Lists -/

theorem pairs_idx {α : Type} {R : α → α → Prop} : ∀ {l l' : List α}, l.length = l'.length →
    (∀ (i : Nat) x y, l[i]? = some x → l'[i]? = some y → R x y) → Pairs2 R l l' := by
  intro l
  induction l with
  | nil => intro l' h _; rw [List.length_eq_zero_iff.1 h.symm]; exact .nil
  | cons x l ih =>
    intro l' h hi
    cases l' with
    | nil => exact absurd h (by simp)
    | cons y l' =>
      exact .cons (hi 0 x y rfl rfl) (ih (by simpa using h) fun i a b ha hb => hi (i + 1) a b (by simpa using ha) (by simpa using hb))

theorem pairs_flatMap {α β : Type} {R : α → α → Prop} {S : β → β → Prop} {f g : α → List β} (h : ∀ x y, R x y → Pairs2 S (f x) (g y)) {l l' : List α}
    (hl : Pairs2 R l l') : Pairs2 S (l.flatMap f) (l'.flatMap g) := by
  induction hl with
  | nil => exact .nil
  | cons hxy _ ih => rw [List.flatMap_cons, List.flatMap_cons]; exact (h _ _ hxy).append ih

theorem pairs_map {α β : Type} {R : α → α → Prop} {S : β → β → Prop} {f g : α → β} (h : ∀ x y, R x y → S (f x) (g y)) {l l' : List α}
    (hl : Pairs2 R l l') : Pairs2 S (l.map f) (l'.map g) := by
  induction hl with
  | nil => exact .nil
  | cons hxy _ ih => exact .cons (h _ _ hxy) ih

theorem pairs_filter {α : Type} {R : α → α → Prop} {p q : α → Bool} (h : ∀ x y, R x y → p x = q y) {l l' : List α}
    (hl : Pairs2 R l l') : Pairs2 R (l.filter p) (l'.filter q) := by
  induction hl with
  | nil => exact .nil
  | @cons x y l l' hxy _ ih =>
    rw [List.filter_cons, List.filter_cons, h _ _ hxy]
    split
    · exact .cons hxy ih
    · exact ih

theorem pairs_mono {α : Type} {R S : α → α → Prop} (h : ∀ x y, R x y → S x y) {l l' : List α} (hl : Pairs2 R l l') : Pairs2 S l l' := by
  induction hl with
  | nil => exact .nil
  | cons hxy _ ih => exact .cons (h _ _ hxy) ih

theorem pairs_length {α : Type} {R : α → α → Prop} {l l' : List α} (hl : Pairs2 R l l') : l.length = l'.length := by
  induction hl with
  | nil => rfl
  | cons _ _ ih => simp [ih]

theorem pairs_get {α : Type} {R : α → α → Prop} {l l' : List α} (hl : Pairs2 R l l') : ∀ n : Nat,
    (l[n]? = none ∧ l'[n]? = none) ∨ ∃ x y, l[n]? = some x ∧ l'[n]? = some y ∧ R x y := by
  induction hl with
  | nil => intro n; exact .inl ⟨rfl, rfl⟩
  | cons hxy _ ih =>
    intro n
    cases n with
    | zero => exact .inr ⟨_, _, rfl, rfl, hxy⟩
    | succ n => exact ih n

theorem pairs_smL {l l' : List Obj} (h : Pairs2 Sm l l') : SmL l l' := by
  refine ⟨pairs_length h, fun i x y hx hy => ?_⟩
  rcases pairs_get h i with ⟨h1, -⟩ | ⟨a, b, h1, h2, h3⟩
  · rw [hx] at h1; cases h1
  · rw [hx] at h1; rw [hy] at h2; cases h1; cases h2; exact h3

theorem smL_pairs {l l' : List Obj} (h : SmL l l') : Pairs2 Sm l l' := pairs_idx h.1 h.2

/-! ### Objects -/

variable {b : Bool}

theorem Sm.md {x y : Obj} (h : Sm x y) : SmL x.md y.md := by
  obtain ⟨h, hw⟩ := h
  cases h with
  | mk _ _ _ _ _ _ _ hl _ hm _ =>
    cases hw with
    | mk _ _ _ _ _ _ hw _ => exact ⟨hl, fun i x y hx hy => ⟨hm i x y hx hy, hw x (List.mem_of_getElem? hx)⟩⟩

theorem Sm.cls {x y : Obj} (h : Sm x y) : x.cls = y.cls := by
  obtain ⟨h, -⟩ := h; cases h; assumption

theorem Sm.ns {x y : Obj} (h : Sm x y) : x.data.ns = y.data.ns := by
  obtain ⟨h, -⟩ := h; cases h; assumption

theorem Sm.name {x y : Obj} (h : Sm x y) : x.data.name = y.data.name := by
  obtain ⟨h, -⟩ := h; cases h; assumption

theorem nsmapOf_cons (x : Obj) (up : List Obj) : nsmapOf (x :: up) = ownNs x (nsmapOf up) := by
  unfold ownNs
  rw [nsmapOf]
  cases x.data.nsmap <;> rfl

theorem KidR.kids {m m' : Dict Str Str} {x y : Obj} (h : KidR b m m' x y) : Pairs2 (KidR b (ownNs x m) (ownNs y m')) x.kids y.kids := by
  refine pairs_idx h.1.kids.1 fun i a c ha hc => ⟨h.1.kids.2 i a c ha hc, fun hb => ?_⟩
  have := h.2 hb
  cases this with
  | mk _ _ _ h3 => exact h3 i a c ha hc

theorem KidR.md {m m' : Dict Str Str} {x y : Obj} (h : KidR b m m' x y) : Pairs2 (KidR b (ownNs x m) (ownNs y m')) x.md y.md := by
  refine pairs_idx (Sm.md h.1).1 fun i a c ha hc => ⟨(Sm.md h.1).2 i a c ha hc, fun hb => ?_⟩
  have := h.2 hb
  cases this with
  | mk _ _ h2 _ => exact h2 i a c ha hc

theorem ChainR.get {x y : Obj} {up up' : List Obj} (h : ChainR b (x :: up) (y :: up')) (hb : b = true) (p : Str) :
    Dict.get? (nsmapOf (x :: up)) p = Dict.get? (nsmapOf (y :: up')) p := by
  cases h with
  | cons h _ =>
    have := h.2 hb
    cases this with
    | mk h1 _ _ _ => rw [nsmapOf_cons, nsmapOf_cons]; exact h1 p

theorem ChainR.attrs {x y : Obj} {up up' : List Obj} (h : ChainR b (x :: up) (y :: up')) (hb : b = true) : x.data.attrs = y.data.attrs := by
  cases h with
  | cons h _ =>
    have := h.2 hb
    cases this with
    | mk _ h2 _ _ => exact h2

theorem ChainR.sm {x y : Obj} {up up' : List Obj} (h : ChainR b (x :: up) (y :: up')) : Sm x y := by
  cases h with
  | cons h _ => exact h.1

theorem ChainR.kids {x y : Obj} {up up' : List Obj} (h : ChainR b (x :: up) (y :: up')) :
    Pairs2 (fun k k' => ChainR b (k :: x :: up) (k' :: y :: up')) x.kids y.kids := by
  have h' := h
  cases h with
  | cons h _ =>
    refine pairs_mono (fun k k' hk => .cons ?_ h') h.kids
    rw [nsmapOf_cons, nsmapOf_cons]; exact hk

theorem ChainR.md {x y : Obj} {up up' : List Obj} (h : ChainR b (x :: up) (y :: up')) :
    Pairs2 (fun k k' => ChainR b (k :: x :: up) (k' :: y :: up')) x.md y.md := by
  have h' := h
  cases h with
  | cons h _ =>
    refine pairs_mono (fun k k' hk => .cons ?_ h') h.md
    rw [nsmapOf_cons, nsmapOf_cons]; exact hk

theorem ChainR.pairs {l l' : List Obj} (h : ChainR b l l') : Pairs2 Sm l l' := by
  induction h with
  | nil => exact .nil
  | cons h _ ih => exact .cons h.1 ih

theorem member_same {x y : Obj} (h : Sm x y) (k : Str) : member x k = member y k := by
  unfold member
  simp only [h.id, h.type, Sm.ns h, h.text, Sm.cls h, Sm.name h, h.attr k]

/-! ### Neutral paths -/

theorem Neutral.mono {s s' : Str} (h : Neutral b s') (hs : ∀ c ∈ s, c ∈ s') : Neutral b s :=
  fun hb => ⟨fun hm => (h hb).1 (hs _ hm), (h hb).2.imp (fun h hm => h (hs _ hm)) fun h hm => h (hs _ hm)⟩

theorem splitOnce_mem {c : Char} : ∀ {s a d : Str}, splitOnce c s = some (a, d) → c ∈ s := by
  intro s a d h
  by_cases hc : c ∈ s
  · exact hc
  · rw [splitOnce_none hc] at h; cases h

theorem splitOnce_eq {c : Char} {s a d : Str} (h : splitOnce c s = some (a, d)) : s = a ++ c :: d := by
  induction s generalizing a with
  | nil => cases h
  | cons x s ih =>
    simp only [splitOnce] at h
    split at h
    · cases h; subst_vars; rfl
    · cases hs : splitOnce c s with
      | none => rw [hs] at h; cases h
      | some v =>
        rw [hs] at h
        cases h
        rw [ih (a := v.1) (by rw [hs])]
        rfl

theorem splitNs_none {name : Str} (h : ':' ∉ name) : splitNs name = (none, name) := by
  unfold splitNs
  rw [splitOnce_none h]

/-! ### Nodes -/

theorem getCrit_same {x y : Obj} {up up' : List Obj} (h : ChainR b (x :: up) (y :: up')) {ns name : Option Str} (hn : b = false → ns = none) :
    PyR (Pairs2 (PvR b)) (selectKids x up ns name) (selectKids y up' ns name) := by
  have key : ∀ (cr : Dict Str (Option Str)), Pairs2 (PvR b) ((x.kids.filter fun k => cr.all fun p => decide (member k p.1 = p.2)).map fun k => .node k (x :: up))
      ((y.kids.filter fun k => cr.all fun p => decide (member k p.1 = p.2)).map fun k => .node k (y :: up')) := by
    intro cr
    refine pairs_map (R := fun k k' => ChainR b (k :: x :: up) (k' :: y :: up')) (fun k k' hk => .node hk) (pairs_filter (fun k k' hk => ?_) h.kids)
    congr 1
    funext p
    rw [member_same hk.sm]
  unfold selectKids select
  split
  · next hh =>
    simp only [Except.map]
    have : nsCriterion (nsmapOf (x :: up)) (crit ns name) = nsCriterion (nsmapOf (y :: up')) (crit ns name) := by
      cases hb : b with
      | true => unfold nsCriterion; simp only [h.get hb]
      | false =>
        rw [hn hb] at hh ⊢
        unfold nsCriterion
        cases name <;> simp [crit, Dict.get?]
    rw [this]
    exact key _
  · exact key _

theorem mdKids_same {x y : Obj} {up up' : List Obj} (h : ChainR b (x :: up) (y :: up')) (ns : Option Str) :
    Pairs2 (PvR b) (mdKids x up ns) (mdKids y up' ns) := by
  unfold mdKids
  refine pairs_map (R := fun k k' => ChainR b (k :: x :: up) (k' :: y :: up')) (fun k k' hk => .node hk) ?_
  cases ns with
  | none => exact h.md
  | some n =>
    refine pairs_filter (fun k k' hk => ?_) h.md
    rw [Sm.ns hk.sm]

theorem findChild_same {v v' : PV} (h : PvR b v v') {name : Str} (hn : b = false → ':' ∉ name) :
    PyR (Pairs2 (PvR b)) (findChild v name) (findChild v' name) := by
  have hns : b = false → (splitNs name).1 = none := fun hb => by rw [splitNs_none (hn hb)]
  cases h with
  | str s => simp only [findChild]; split <;> first | rfl | exact .nil
  | none => exact .nil
  | list _ => simp only [findChild]; split <;> first | rfl | exact .nil
  | @node x y up up' h =>
    have hc := Sm.cls h.sm
    simp only [findChild, hc]
    split
    · have := getCrit_same h (name := none) hns
      revert this
      cases selectKids x up (splitNs name).1 none <;> cases selectKids y up' (splitNs name).1 none <;> intro this
      · exact this
      · exact this
      · exact this
      · exact (mdKids_same h none).append this
    · split
      · exact getCrit_same h hns
      · split
        · exact mdKids_same h _
        · split
          · exact getCrit_same h hns
          · exact .nil

theorem mapPy_same2 {α β : Type} {R : α → α → Prop} {S : β → β → Prop} {f g : α → Py β} (hf : ∀ x y, R x y → PyR S (f x) (g y)) {l l' : List α}
    (h : Pairs2 R l l') : PyR (Pairs2 S) (mapPy f l) (mapPy g l') := by
  induction h with
  | nil => exact .nil
  | @cons w w' l l' hw _ ih =>
    have := hf w w' hw
    simp only [mapPy]
    revert this
    cases f w <;> cases g w' <;> intro this
    · exact this
    · exact this.elim
    · exact this.elim
    · simp only [bind, Except.bind]
      revert ih
      cases mapPy f l <;> cases mapPy g l' <;> intro ih
      · exact ih
      · exact ih.elim
      · exact ih.elim
      · exact .cons this ih

theorem findAttr_same {v v' : PV} (h : PvR b v v') {attr : Str} (hn : b = false → ':' ∉ attr) (hs : b = false → '*' ∉ attr) :
    PyR (Pairs2 (PvR b)) (findAttr v attr) (findAttr v' attr) := by
  have hns : b = false → splitNs attr = (none, attr) := fun hb => splitNs_none (hn hb)
  have hstar : b = false → (splitNs attr).2 ≠ lit! "*" := by
    intro hb e
    rw [hns hb] at e
    exact hs hb (by rw [show attr = lit! "*" from e]; decide)
  unfold findAttr
  split
  · cases h with
    | node h =>
      simp only [member_same h.sm]
      split
      · exact .cons (.str _) .nil
      · exact .nil
    | str s => exact .nil
    | none => exact .nil
    | list _ => exact .nil
  · cases h with
    | @node x y up up' h =>
      simp only
      have hq : ∀ key ns, (b = false → ns = none ∧ ':' ∉ key) → qualify (nsmapOf (x :: up)) key ns = qualify (nsmapOf (y :: up')) key ns := by
        intro key ns hk
        cases hb : b with
        | true => unfold qualify; simp only [h.get hb, Dict.getItem]
        | false =>
          obtain ⟨h1, h2⟩ := hk hb
          rw [h1, qualify_full _ _ (.inr h2), qualify_full _ _ (.inr h2)]
      have key : ∀ k, (b = false → ':' ∉ k) → PyR (PvR b) (getAttr1 (x :: up) (splitNs attr).1 k) (getAttr1 (y :: up') (splitNs attr).1 k) := by
        intro k hk
        have : getAttr1 (x :: up) (splitNs attr).1 k = getAttr1 (y :: up') (splitNs attr).1 k := by
          unfold getAttr1 getAttribute
          rw [hq _ _ fun hb => by rw [hns hb]; exact ⟨rfl, hk hb⟩]
          split
          · rfl
          · simp only [h.sm.attr]
            split <;> simp
        rw [this]
        unfold getAttr1
        cases getAttribute (y :: up') k none false (splitNs attr).1 with
        | error e => rfl
        | ok a =>
          cases a with
          | some s => exact PvR.str s
          | none => exact PvR.none
      split
      · next hst =>
        have hb : b = true := by
          cases hb : b with
          | true => rfl
          | false => exact absurd hst (hstar hb)
        rw [h.attrs hb]
        refine mapPy_same2 (R := Eq) (S := PvR b) (fun k k' e => ?_) (pairs_idx rfl fun n x y hx hy => Option.some.inj (hx.symm.trans hy))
        subst e
        exact key k fun hf => by rw [hb] at hf; cases hf
      · have := key (splitNs attr).2 fun hb => by rw [hns hb]; exact hn hb
        revert this
        cases getAttr1 (x :: up) (splitNs attr).1 (splitNs attr).2 <;> cases getAttr1 (y :: up') (splitNs attr).1 (splitNs attr).2 <;> intro this
        · exact this
        · exact this.elim
        · exact this.elim
        · exact .cons this .nil
    | str s => rfl
    | none => rfl
    | list _ => rfl

theorem descObjs_flatMap (name : Str) (up : List Obj) : ∀ l : List Obj, descObjs name up l = l.flatMap (descObj name up) := by
  intro l
  induction l with
  | nil => simp [descObjs]
  | cons x l ih => simp [descObjs, ih]

theorem objName_same {x y : Obj} (h : Sm x y) : objName x = objName y := by
  unfold objName
  rw [Sm.cls h, Sm.name h]

theorem descObj_same {x y : Obj} (hs : SameData x y) : ∀ (name : Str) (up up' : List Obj), ChainR b (x :: up) (y :: up') →
    Pairs2 (PvR b) (descObj name up x) (descObj name up' y) := by
  induction hs with
  | @mk a a' md md' ks ks' hc _ _ hns _ _ _ hl1 hl2 h1 h2 ih1 ih2 =>
    intro name up up' h
    have hkids := h.kids
    have hmds := h.md
    simp only [Obj.kids_mk, Obj.md_mk] at hkids hmds
    have hmd : Pairs2 (PvR b) (descObjs (splitNs name).2 (.mk a md ks :: up) md) (descObjs (splitNs name).2 (.mk a' md' ks' :: up') md') := by
      rw [descObjs_flatMap, descObjs_flatMap]
      refine pairs_flatMap (R := fun k k' => Pairs2 (PvR b) (descObj (splitNs name).2 (.mk a md ks :: up) k) (descObj (splitNs name).2 (.mk a' md' ks' :: up') k')) (fun _ _ h => h) (pairs_idx hl1 fun i k k' hk hk' => ih1 i k k' hk hk' _ _ _ ?_)
      rcases pairs_get hmds i with ⟨g1, -⟩ | ⟨z, z', g1, g2, g3⟩
      · rw [hk] at g1; cases g1
      · rw [hk] at g1; rw [hk'] at g2; cases g1; cases g2; exact g3
    have hks : Pairs2 (PvR b) (descObjs (splitNs name).2 (.mk a md ks :: up) ks) (descObjs (splitNs name).2 (.mk a' md' ks' :: up') ks') := by
      rw [descObjs_flatMap, descObjs_flatMap]
      refine pairs_flatMap (R := fun k k' => Pairs2 (PvR b) (descObj (splitNs name).2 (.mk a md ks :: up) k) (descObj (splitNs name).2 (.mk a' md' ks' :: up') k')) (fun _ _ h => h) (pairs_idx hl2 fun i k k' hk hk' => ih2 i k k' hk hk' _ _ _ ?_)
      rcases pairs_get hkids i with ⟨g1, -⟩ | ⟨z, z', g1, g2, g3⟩
      · rw [hk] at g1; cases g1
      · rw [hk] at g1; rw [hk'] at g2; cases g1; cases g2; exact g3
    have ho := objName_same h.sm
    rw [descObj, descObj, ho, hc, hns]
    refine Pairs2.append ?_ ?_
    · split
      · exact .cons (.node h) .nil
      · exact .nil
    · split
      · exact .nil
      · exact hmd.append hks

theorem descSelf_same {v v' : PV} (h : PvR b v v') (name : Str) : GenR b (descSelf v name) (descSelf v' name) := by
  cases h with
  | node h => exact ⟨descObj_same h.sm.1 _ _ _ h, rfl⟩
  | str s =>
    simp only [descSelf]
    split
    · exact ⟨.nil, rfl⟩
    · refine ⟨?_, rfl⟩
      simp only
      split
      · exact .cons (.str s) .nil
      · exact .nil
  | none =>
    simp only [descSelf]
    split
    · exact ⟨.nil, rfl⟩
    · refine ⟨?_, rfl⟩
      simp only
      split
      · exact .cons .none .nil
      · exact .nil
  | list hl =>
    simp only [descSelf]
    split
    · exact ⟨.nil, rfl⟩
    · refine ⟨?_, rfl⟩
      simp only
      split
      · exact .cons (.list hl) .nil
      · exact .nil

theorem parentOf_same {v v' : PV} (h : PvR b v v') : PyR (PvR b) (parentOf v) (parentOf v') := by
  cases h with
  | @node x y up up' h =>
    have hc := Sm.cls h.sm
    cases h with
    | cons _ h =>
      cases h with
      | nil =>
        simp only [parentOf, hc]
        split
        · rfl
        · exact .none
      | cons h1 h2 => exact .node (.cons h1 h2)
  | str s => rfl
  | none => rfl
  | list _ => rfl

theorem getCorpus_same {v v' : PV} (h : PvR b v v') : PyR (PvR b) (getCorpus v) (getCorpus v') := by
  cases h with
  | @node x y up up' h =>
    simp only [getCorpus]
    revert h
    generalize x :: up = l
    generalize y :: up' = l'
    intro h
    induction h with
    | nil => rfl
    | @cons x y up up' hx h ih =>
      rw [List.dropWhile_cons, List.dropWhile_cons, Sm.cls hx.1]
      by_cases hc : y.cls = .corpus
      · have : ∀ l : List Obj, (if (decide (y.cls ≠ .corpus)) = true then l else y :: up') = y :: up' := by intro l; rw [if_neg (by simp [hc])]
        rw [this, if_neg (by simp [hc])]
        exact PvR.node (.cons hx h)
      · rw [if_pos (by simp [hc]), if_pos (by simp [hc])]
        exact ih
  | str s => rfl
  | none => rfl
  | list _ => rfl

/-! ### Functions -/

/-- what has the same place in both -/
def EntR (b : Bool) (igt igt' : Obj) (up up' : List Obj) (e e' : Entry) : Prop :=
  match e.tier, e'.tier with
  | none, none => ChainR b (e.obj :: igt :: up) (e'.obj :: igt' :: up')
  | some t, some t' => ChainR b (e.obj :: t :: igt :: up) (e'.obj :: t' :: igt' :: up')
  | _, _ => False

theorem find_pairs {R : Obj → Obj → Prop} (hR : ∀ x y, R x y → x.data.id = y.data.id) (s : Str) {l l' : List Obj} (h : Pairs2 R l l') :
    (l.find? (fun x => decide (x.data.id = some s)) = none ∧ l'.find? (fun x => decide (x.data.id = some s)) = none) ∨
    ∃ x y, l.find? (fun x => decide (x.data.id = some s)) = some x ∧ l'.find? (fun x => decide (x.data.id = some s)) = some y ∧ R x y := by
  induction h with
  | nil => exact .inl ⟨rfl, rfl⟩
  | @cons x y l l' hxy _ ih =>
    rw [List.find?_cons, List.find?_cons, hR x y hxy]
    split
    · exact .inr ⟨x, y, rfl, rfl, hxy⟩
    · exact ih

theorem contGet_pairs {R : Obj → Obj → Prop} (hR : ∀ x y, R x y → x.data.id = y.data.id) (s : Str) {l l' : List Obj} (h : Pairs2 R l l') :
    (contGet l s = none ∧ contGet l' s = none) ∨ ∃ x y, contGet l s = some x ∧ contGet l' s = some y ∧ R x y := by
  unfold contGet
  rcases find_pairs hR s h with ⟨h1, h2⟩ | ⟨x, y, h1, h2, h3⟩ <;> rw [h1, h2]
  · simp only
    cases pyInt s with
    | error e => exact .inl ⟨rfl, rfl⟩
    | ok i =>
      simp only [pyGet, pairs_length h]
      cases pyIdx l'.length i with
      | none => exact .inl ⟨rfl, rfl⟩
      | some n =>
        rcases pairs_get h n with ⟨h1, h2⟩ | ⟨x, y, h1, h2, h3⟩ <;> simp only [h1, h2]
        · exact .inl ⟨rfl, rfl⟩
        · exact .inr ⟨x, y, rfl, rfl, h3⟩
  · exact .inr ⟨x, y, rfl, rfl, h3⟩

theorem refreshItems_pairs {R : Obj × Obj → Obj × Obj → Prop} (hR : ∀ n n', R n n' → n.2.data.id = n'.2.data.id) {l l' : List (Obj × Obj)} (h : Pairs2 R l l') :
    ∀ (d d' : Dict (Option Str) (Obj × Obj)), (∀ k, (Dict.get? d k = none ∧ Dict.get? d' k = none) ∨ ∃ n n', Dict.get? d k = some n ∧ Dict.get? d' k = some n' ∧ R n n') →
      ∀ k, (Dict.get? (refreshItems d l) k = none ∧ Dict.get? (refreshItems d' l') k = none) ∨
        ∃ n n', Dict.get? (refreshItems d l) k = some n ∧ Dict.get? (refreshItems d' l') k = some n' ∧ R n n' := by
  induction h with
  | nil => intro d d' h; exact h
  | @cons n n' l l' hn _ ih =>
    intro d d' h
    refine ih _ _ fun k => ?_
    simp only [← hR _ _ hn]
    rw [Dict.get?_set, Dict.get?_set]
    split
    · exact .inr ⟨_, _, rfl, rfl, hn⟩
    · exact h k

/-- the indices of the igts are those made when they were loaded or last refreshed -/
def FreshAll (c : PCfg) : Prop := ∀ igt, c.index igt = (newIgt c.allowed igt).itemdict

theorem getAny_same {c : PCfg} (hf : FreshAll c) {igt igt' : Obj} {up up' : List Obj} (h : ChainR b (igt :: up) (igt' :: up')) (i : Str) :
    (getAny { igt := igt, itemdict := c.index igt } i = none ∧ getAny { igt := igt', itemdict := c.index igt' } i = none) ∨
    ∃ e e', getAny { igt := igt, itemdict := c.index igt } i = some e ∧ getAny { igt := igt', itemdict := c.index igt' } i = some e' ∧ EntR b igt igt' up up' e e' := by
  unfold getAny
  simp only
  rcases contGet_pairs (fun _ _ h => h.sm.id) i h.kids with ⟨h1, h2⟩ | ⟨x, y, h1, h2, h3⟩ <;> rw [h1, h2]
  · simp only [igtGetItem]
    rw [hf, hf]
    have hn : Pairs2 (fun n n' : Obj × Obj => ChainR b (n.2 :: n.1 :: igt :: up) (n'.2 :: n'.1 :: igt' :: up')) (itemNodes igt) (itemNodes igt') := by
      unfold itemNodes
      refine pairs_flatMap (fun t t' ht => ?_) h.kids
      exact pairs_map (R := fun k k' => ChainR b (k :: t :: igt :: up) (k' :: t' :: igt' :: up')) (f := fun i => (t, i)) (g := fun i => (t', i)) (fun k k' hk => hk) ht.kids
    rcases refreshItems_pairs (fun n n' h => h.sm.id) hn [] [] (fun k => .inl ⟨rfl, rfl⟩) (some i) with ⟨g1, g2⟩ | ⟨n, n', g1, g2, g3⟩
    · exact .inl ⟨congrArg (Option.map nodeEntry) g1, congrArg (Option.map nodeEntry) g2⟩
    · exact .inr ⟨_, _, congrArg (Option.map nodeEntry) g1, congrArg (Option.map nodeEntry) g2, g3⟩
  · exact .inr ⟨_, _, rfl, rfl, h3⟩

theorem anyV_same {c : PCfg} (hf : FreshAll c) {igt igt' : Obj} {up up' : List Obj} (h : ChainR b (igt :: up) (igt' :: up')) (i : Str) :
    PvR b (anyV c igt up i) (anyV c igt' up' i) := by
  unfold anyV
  rcases getAny_same hf h i with ⟨h1, h2⟩ | ⟨⟨t, o⟩, ⟨t', o'⟩, h1, h2, h3⟩ <;> rw [h1, h2]
  · exact .none
  · unfold EntR at h3
    cases t <;> cases t'
    · exact .node h3
    · exact h3.elim
    · exact h3.elim
    · exact .node h3

theorem findRefs_same {c : PCfg} (hf : FreshAll c) (hal : ByType c.allowed) (r : Bool) {igt igt' : Obj} {up up' : List Obj}
    (h : ChainR b (igt :: up) (igt' :: up')) (id : Option Str) (ras : Option (List Str)) :
    PyR (Pairs2 (PvR b)) (findRefs c r igt up id ras) (findRefs c r igt' up' id ras) := by
  unfold findRefs
  cases id with
  | none => rfl
  | some i =>
    obtain ⟨-, -, -, h1, h2⟩ := C132_same igt igt' h.sm c.allowed hal
    have e1 : referents c.allowed { igt := igt, itemdict := c.index igt } i ras = referents c.allowed { igt := igt', itemdict := c.index igt' } i ras := by
      rw [hf, hf]; exact h1 i ras
    have e2 : referrers c.allowed { igt := igt, itemdict := c.index igt } i ras = referrers c.allowed { igt := igt', itemdict := c.index igt' } i ras := by
      rw [hf, hf]; exact h2 i ras
    have key : ∀ d : Dict Str (List Str), Pairs2 (PvR b) ((sortItems d).flatMap fun p => p.2.map (anyV c igt up)) ((sortItems d).flatMap fun p => p.2.map (anyV c igt' up')) := by
      intro d
      refine pairs_flatMap (R := Eq) (fun p q e => ?_) ?_
      · subst e
        refine pairs_map (R := Eq) (fun j k e => ?_) ?_
        · subst e; exact anyV_same hf h j
        · exact pairs_idx rfl fun n x y hx hy => Option.some.inj (hx.symm.trans hy)
      · exact pairs_idx rfl fun n x y hx hy => Option.some.inj (hx.symm.trans hy)
    simp only [e1, e2]
    split
    · cases referrers c.allowed { igt := igt', itemdict := c.index igt' } i ras with
      | error e => rfl
      | ok d => exact key d
    · cases referents c.allowed { igt := igt', itemdict := c.index igt' } i ras with
      | error e => rfl
      | ok d => exact key d

theorem refsOf_same {c : PCfg} (hf : FreshAll c) (hal : ByType c.allowed) (r : Bool) {v v' : PV} (h : PvR b v v') (ras : Option (List Str)) :
    PyR (Pairs2 (PvR b)) (refsOf c r v ras) (refsOf c r v' ras) := by
  cases h with
  | @node x y up up' h =>
    simp only [refsOf, Sm.cls h.sm, h.sm.id]
    cases y.cls with
    | igt => exact findRefs_same hf hal r h _ ras
    | tier =>
      cases h with
      | cons _ h =>
        cases h with
        | nil => rfl
        | cons h1 h2 => exact findRefs_same hf hal r (.cons h1 h2) _ ras
    | item =>
      cases h with
      | cons _ h =>
        cases h with
        | nil => rfl
        | cons h1 h2 =>
          cases h2 with
          | nil => rfl
          | cons h3 h4 => exact findRefs_same hf hal r (.cons h3 h4) _ ras
    | _ => rfl
  | str s => rfl
  | none => rfl
  | list _ => rfl

theorem ofOpt_same (o : Option Str) : PvR b (.ofOpt o) (.ofOpt o) := by
  cases o with
  | none => exact .none
  | some s => exact .str s

theorem function_same {c : PCfg} (hf : FreshAll c) (hal : ByType c.allowed) {v v' : PV} (h : PvR b v v') (f : Str) (args : List Str) :
    PyR (Pairs2 (PvR b)) (function c v f args) (function c v' f args) := by
  unfold function
  split
  · cases h with
    | node h =>
      simp only [Sm.cls h.sm, h.sm.text]
      split
      · exact .cons (ofOpt_same _) .nil
      · split
        · exact .cons (.list (smL_pairs h.sm.kids)) .nil
        · rfl
    | str s => rfl
    | none => rfl
    | list _ => rfl
  · split
    · cases h with
      | @node x y up up' h =>
        simp only [Sm.cls h.sm]
        split
        · have hp := h.pairs
          have ho : ∀ n : Nat, SmO up[n]? up'[n]? := by
            intro n
            have := getElem?_same (pairs_smL hp) (n + 1)
            simpa using this
          rw [value_same c.depth _ _ _ _ x y (ho 1) (ho 0) h.sm]
          cases value c.depth up'[1]? up'[0]? y with
          | error e => rfl
          | ok s => exact .cons (ofOpt_same _) .nil
        · rfl
      | str s => rfl
      | none => rfl
      | list _ => rfl
    · exact refsOf_same hf hal _ h _

/-! ### Generators -/

theorem ofPy_same {r r' : Py (List PV)} (h : PyR (Pairs2 (PvR b)) r r') : GenR b (.ofPy r) (.ofPy r') := by
  cases r <;> cases r'
  · exact ⟨.nil, congrArg some h⟩
  · exact h.elim
  · exact h.elim
  · exact ⟨h, rfl⟩

theorem toList_same {g g' : Gen} (h : GenR b g g') : PyR (Pairs2 (PvR b)) g.toList g'.toList := by
  unfold Gen.toList
  rw [h.2]
  cases g'.err with
  | none => exact h.1
  | some e => rfl

theorem bind_same {f f' : PV → Gen} (hf : ∀ v v', PvR b v v' → GenR b (f v) (f' v')) {g g' : Gen} (h : GenR b g g') : GenR b (g.bind f) (g'.bind f') := by
  unfold Gen.bind
  rw [h.2]
  have := h.1
  revert this
  generalize g.vals = l
  generalize g'.vals = l'
  intro this
  induction this with
  | nil => exact ⟨.nil, rfl⟩
  | @cons v v' l l' hv _ ih =>
    obtain ⟨h1, h2⟩ := hf v v' hv
    rw [Gen.bindL, Gen.bindL, h2]
    cases (f' v').err with
    | none => exact ⟨h1.append ih.1, ih.2⟩
    | some e => exact ⟨h1, rfl⟩

theorem filter_same {t t' : PV → Py Bool} (ht : ∀ v v', PvR b v v' → t v = t' v') {g g' : Gen} (h : GenR b g g') : GenR b (g.filter t) (g'.filter t') := by
  unfold Gen.filter
  rw [h.2]
  have := h.1
  revert this
  generalize g.vals = l
  generalize g'.vals = l'
  intro this
  induction this with
  | nil => exact ⟨.nil, rfl⟩
  | @cons v v' l l' hv _ ih =>
    rw [Gen.filterL, Gen.filterL, ht v v' hv]
    cases t' v' with
    | error e => exact ⟨.nil, rfl⟩
    | ok r =>
      cases r with
      | true => exact ⟨.cons hv ih.1, ih.2⟩
      | false => exact ih

/-! ### The machine -/

theorem isStr_same {v v' : PV} (h : PvR b v v') (s : Str) : PV.isStr s v = PV.isStr s v' := by
  cases h <;> rfl

theorem any_same (s : Str) {l l' : List PV} (h : Pairs2 (PvR b) l l') : l.any (PV.isStr s) = l'.any (PV.isStr s) ∧
    (l.all fun w => !PV.isStr s w) = l'.all fun w => !PV.isStr s w := by
  induction h with
  | nil => exact ⟨rfl, rfl⟩
  | cons h _ ih => simp only [List.any_cons, List.all_cons, isStr_same h, ih.1, ih.2, and_self]

/-- what is done with parts of paths -/
def SubR (b : Bool) (sub : PV → Str → Gen) : Prop := ∀ v v' p, PvR b v v' → Neutral b p → GenR b (sub v p) (sub v' p)

theorem mem_tail {t : Str} {ts : List Str} : ∀ c ∈ ts.flatten, c ∈ (t :: ts).flatten := by
  intro c hc
  rw [List.flatten_cons]
  exact List.mem_append_right _ hc

theorem mem_sub {l l' : List Str} (h : ∀ t ∈ l, t ∈ l') : ∀ c ∈ l.flatten, c ∈ l'.flatten := by
  intro c hc
  obtain ⟨t, ht, hct⟩ := List.mem_flatten.1 hc
  exact List.mem_flatten.2 ⟨t, h t ht, hct⟩

theorem predTest_same {sub : PV → Str → Gen} (hs : SubR b sub) {ts : List Str} (hn : Neutral b ts.flatten) :
    (∃ e, predTest sub ts = .error e) ∨ ∃ t r, predTest sub ts = .ok (t, r) ∧ (∀ v v', PvR b v v' → t v = t v') ∧ Neutral b r.flatten := by
  have hp : Neutral b (ts.takeWhile fun t => !predEnd t).flatten := hn.mono (mem_sub fun t ht => (List.takeWhile_sublist _).subset ht)
  unfold predTest
  simp only
  cases hd : ts.dropWhile (fun t => !predEnd t) with
  | nil => exact .inl ⟨_, rfl⟩
  | cons t r =>
    have hr : ∀ u ∈ t :: r, u ∈ ts := fun u hu => (List.dropWhile_sublist _).subset (hd ▸ hu)
    simp only
    split
    · refine .inr ⟨_, _, rfl, fun v v' hv => ?_, hn.mono (mem_sub fun u hu => hr u (by simp [hu]))⟩
      have := toList_same (hs v v' _ hv hp)
      revert this
      cases (sub v (ts.takeWhile fun t => !predEnd t).flatten).toList <;> cases (sub v' (ts.takeWhile fun t => !predEnd t).flatten).toList <;> intro this
      · simp only [PyR] at this; subst this; rfl
      · exact this.elim
      · exact this.elim
      · rfl
    · split
      · next val _ r' =>
        have hr' : Neutral b r'.flatten := hn.mono (mem_sub fun u hu => hr u (by simp [hu]))
        split
        · refine .inr ⟨_, _, rfl, fun v v' hv => ?_, hr'⟩
          have := toList_same (hs v v' _ hv hp)
          revert this
          cases (sub v (ts.takeWhile fun t => !predEnd t).flatten).toList <;> cases (sub v' (ts.takeWhile fun t => !predEnd t).flatten).toList <;> intro this
          · simp only [PyR] at this; subst this; rfl
          · exact this.elim
          · exact this.elim
          · exact congrArg Except.ok (any_same _ this).1
        · refine .inr ⟨_, _, rfl, fun v v' hv => ?_, hr'⟩
          have := toList_same (hs v v' _ hv hp)
          revert this
          cases (sub v (ts.takeWhile fun t => !predEnd t).flatten).toList <;> cases (sub v' (ts.takeWhile fun t => !predEnd t).flatten).toList <;> intro this
          · simp only [PyR] at this; subst this; rfl
          · exact this.elim
          · exact this.elim
          · exact congrArg Except.ok (any_same _ this).2
      · exact .inl ⟨_, rfl⟩

/-- the same, and the same tokens left -/
def StR (b : Bool) (r r' : Gen × List Str) : Prop := GenR b r.1 r'.1 ∧ r.2 = r'.2 ∧ Neutral b r.2.flatten

theorem predLoop_same {sub : PV → Str → Gen} (hs : SubR b sub) : ∀ (n : Nat) {g g' : Gen} {ts : List Str}, GenR b g g' → Neutral b ts.flatten →
    PyR (StR b) (predLoop sub n g ts) (predLoop sub n g' ts) := by
  intro n
  induction n with
  | zero =>
    intro g g' ts h hn
    have e : ∀ g, predLoop sub 0 g ts = .ok (g, ts) := by intro g; unfold predLoop; cases ts <;> rfl
    rw [e, e]
    exact ⟨h, rfl, hn⟩
  | succ n ih =>
    intro g g' ts h hn
    cases ts with
    | nil => exact ⟨h, rfl, hn⟩
    | cons t ts =>
      rw [predLoop, predLoop]
      split
      · rcases predTest_same hs (hn.mono mem_tail) with ⟨e, he⟩ | ⟨p, r, he, hp, hr⟩ <;> rw [he]
        · rfl
        · exact ih (filter_same hp h) hr
      · exact ⟨h, rfl, hn⟩

/-- the alternatives for one object -/
def AltR (b : Bool) (r r' : List PV × List Str) : Prop := Pairs2 (PvR b) r.1 r'.1 ∧ r.2 = r'.2 ∧ Neutral b r.2.flatten

theorem disj_same {alt : PV → List Str → Py (List PV × List Str)} (ha : ∀ v v' ts, PvR b v v' → Neutral b ts.flatten → PyR (AltR b) (alt v ts) (alt v' ts))
    {g g' : Gen} (h : GenR b g g') {ts : List Str} (hn : Neutral b ts.flatten) : PyR (AltR b) (disj alt g ts) (disj alt g' ts) := by
  obtain ⟨h1, h2⟩ := h
  unfold disj
  rw [h2]
  revert h1
  generalize g.vals = l
  generalize g'.vals = l'
  intro h1
  cases h1 with
  | nil =>
    cases g'.err with
    | none => exact ⟨.nil, rfl, hn⟩
    | some e => rfl
  | @cons v v' l l' hv hl =>
    simp only
    have hm : PyR (Pairs2 (Pairs2 (PvR b))) (mapPy (fun w => (alt w ts).map Prod.fst) l) (mapPy (fun w => (alt w ts).map Prod.fst) l') := by
      refine mapPy_same2 (fun w w' hw => ?_) hl
      have := ha w w' ts hw hn
      revert this
      cases alt w ts <;> cases alt w' ts <;> intro this
      · exact this
      · exact this.elim
      · exact this.elim
      · exact this.1
    have := ha v v' ts hv hn
    revert this
    cases alt v ts <;> cases alt v' ts <;> intro this
    · exact this
    · exact this.elim
    · exact this.elim
    · simp only [bind, Except.bind]
      revert hm
      cases mapPy (fun w => (alt w ts).map Prod.fst) l <;> cases mapPy (fun w => (alt w ts).map Prod.fst) l' <;> intro hm
      · exact hm
      · exact hm.elim
      · exact hm.elim
      · simp only
        cases g'.err with
        | some e => rfl
        | none =>
          refine ⟨this.1.append ?_, this.2⟩
          have hm' : Pairs2 (Pairs2 (PvR b)) _ _ := hm
          clear hm
          induction hm' with
          | nil => exact .nil
          | cons h _ ih => rw [List.flatten_cons, List.flatten_cons]; exact h.append ih

theorem node_same {c : PCfg} (hf : FreshAll c) (hal : ByType c.allowed) {alt : PV → List Str → Py (List PV × List Str)}
    (ha : ∀ v v' ts, PvR b v v' → Neutral b ts.flatten → PyR (AltR b) (alt v ts) (alt v' ts)) {g g' : Gen} (h : GenR b g g') {t : Str} {ts : List Str}
    (hn : Neutral b (t :: ts).flatten) : PyR (StR b) (node c alt g t ts) (node c alt g' t ts) := by
  have hts : Neutral b ts.flatten := hn.mono mem_tail
  unfold node
  split
  · have := disj_same ha h hts
    revert this
    cases disj alt g ts <;> cases disj alt g' ts <;> intro this
    · exact this
    · exact this.elim
    · exact this.elim
    · exact ⟨⟨this.1, rfl⟩, this.2⟩
  · split
    · cases ts with
      | nil => rfl
      | cons name r => exact ⟨bind_same (fun v v' hv => descSelf_same hv name) h, rfl, hts.mono mem_tail⟩
    · split
      · next hat =>
        cases ts with
        | nil => rfl
        | cons attr r =>
          have h2 : b = false → '*' ∉ attr := by
            intro hb
            rcases (hn hb).2 with h | h
            · exact absurd (by rw [hat]; simp) h
            · exact fun hm => h (by simp [hm])
          refine ⟨bind_same (fun v v' hv => ofPy_same (findAttr_same hv (fun hb hm => (hn hb).1 (by simp [hm])) h2)) h, rfl, hts.mono mem_tail⟩
      · split
        · refine ⟨bind_same (fun v v' hv => ofPy_same ?_) h, rfl, hts⟩
          have := parentOf_same hv
          revert this
          cases parentOf v <;> cases parentOf v' <;> intro this
          · exact this
          · exact this.elim
          · exact this.elim
          · exact .cons this .nil
        · split
          · exact ⟨h, rfl, hts⟩
          · split
            · cases ts with
              | nil => rfl
              | cons u r =>
                simp only
                cases hd : r.dropWhile (fun a => decide (a ≠ lit! ")")) with
                | nil => rfl
                | cons w r' =>
                  refine ⟨bind_same (fun v v' hv => ofPy_same (function_same hf hal hv _ _)) h, rfl, hts.mono (mem_sub fun x hx => ?_)⟩
                  have : x ∈ r.dropWhile (fun a => decide (a ≠ lit! ")")) := by rw [hd]; simp [hx]
                  exact List.mem_cons_of_mem _ ((List.dropWhile_sublist _).subset this)
            · refine ⟨bind_same (fun v v' hv => ofPy_same (findChild_same hv fun hb hm => (hn hb).1 (by simp [hm]))) h, rfl, hts⟩

theorem neutral_nil : Neutral b [] := fun _ => ⟨(fun h => by cases h), .inl (fun h => by cases h)⟩

theorem machine_same {c : PCfg} (hf : FreshAll c) (hal : ByType c.allowed) {sub : PV → Str → Gen} (hs : SubR b sub) : ∀ n : Nat,
    (∀ (g g' : Gen) (ts : List Str), GenR b g g' → Neutral b ts.flatten → StR b (step c sub n g ts) (step c sub n g' ts)) ∧
    (∀ (v v' : PV) (ts : List Str), PvR b v v' → Neutral b ts.flatten → StR b (expr c sub n v ts) (expr c sub n v' ts)) ∧
    (∀ (v v' : PV) (ts : List Str), PvR b v v' → Neutral b ts.flatten → PyR (AltR b) (altLoop c sub n v ts) (altLoop c sub n v' ts)) := by
  have hfail : ∀ e, StR b (.fail e, []) (.fail e, []) := fun e => ⟨⟨.nil, rfl⟩, rfl, neutral_nil⟩
  intro n
  induction n with
  | zero =>
    refine ⟨fun g g' ts _ _ => ?_, fun v v' ts _ _ => ?_, fun v v' ts _ _ => ?_⟩
    · rw [step, step]; exact hfail _
    · rw [expr, expr]; exact hfail _
    · rw [altLoop, altLoop]; rfl
  | succ n ih =>
    obtain ⟨ih1, ih2, ih3⟩ := ih
    refine ⟨fun g g' ts h hn => ?_, fun v v' ts h hn => ?_, fun v v' ts h hn => ?_⟩
    · cases ts with
      | nil => rw [step, step]; exact ⟨h, rfl, hn⟩
      | cons t ts =>
        rw [step, step]
        have := node_same hf hal ih3 h hn
        revert this
        cases node c (altLoop c sub n) g t ts <;> cases node c (altLoop c sub n) g' t ts <;> intro this
        · simp only [PyR] at this; subst this; exact hfail _
        · exact this.elim
        · exact this.elim
        · rename_i r r'
          obtain ⟨g1, ts1⟩ := r
          obtain ⟨g1', ts1'⟩ := r'
          obtain ⟨h1, h2, h3⟩ := this
          simp only at h1 h2 h3
          subst h2
          simp only
          have := predLoop_same hs ts1.length h1 h3
          revert this
          cases predLoop sub ts1.length g1 ts1 <;> cases predLoop sub ts1.length g1' ts1 <;> intro this
          · simp only [PyR] at this; subst this; exact hfail _
          · exact this.elim
          · exact this.elim
          · rename_i r r'
            obtain ⟨g2, ts2⟩ := r
            obtain ⟨g2', ts2'⟩ := r'
            obtain ⟨k1, k2, k3⟩ := this
            simp only at k1 k2 k3
            subst k2
            cases ts2 with
            | nil => exact ⟨k1, rfl, k3⟩
            | cons t2 ts2 =>
              simp only
              split
              · exact ih1 _ _ _ k1 (k3.mono mem_tail)
              · split
                · exact ih1 _ _ _ k1 k3
                · exact ⟨k1, rfl, k3⟩
    · cases ts with
      | nil => rw [expr, expr]; exact hfail _
      | cons t ts =>
        rw [expr, expr]
        split
        · have := disj_same ih3 (g := ⟨[v], none⟩) (g' := ⟨[v'], none⟩) ⟨.cons h .nil, rfl⟩ (hn.mono (mem_tail (t := t) (ts := ts)))
          revert this
          cases disj (altLoop c sub n) ⟨[v], none⟩ ts <;> cases disj (altLoop c sub n) ⟨[v'], none⟩ ts <;> intro this
          · simp only [PyR] at this; subst this; exact hfail _
          · exact this.elim
          · exact this.elim
          · exact ⟨⟨this.1, rfl⟩, this.2⟩
        · split
          · have := getCorpus_same h
            revert this
            cases getCorpus v <;> cases getCorpus v' <;> intro this
            · simp only [PyR] at this; subst this; exact hfail _
            · exact this.elim
            · exact this.elim
            · simp only
              refine ih1 _ _ _ ⟨.cons this .nil, rfl⟩ ?_
              split
              · exact hn.mono mem_tail
              · exact hn
          · exact ih1 _ _ _ ⟨.cons h .nil, rfl⟩ hn
    · rw [altLoop, altLoop]
      obtain ⟨⟨h1, h2⟩, h3, h4⟩ := ih2 v v' ts h hn
      rw [h2]
      cases (expr c sub n v' ts).1.err with
      | some e => rfl
      | none =>
        simp only
        rw [h3] at h4 ⊢
        revert h4
        cases (expr c sub n v' ts).2 with
        | nil => intro _; rfl
        | cons t r =>
          intro h4
          simp only
          split
          · have := ih3 v v' r h (h4.mono mem_tail)
            revert this
            cases altLoop c sub n v r <;> cases altLoop c sub n v' r <;> intro this
            · exact this
            · exact this.elim
            · exact this.elim
            · exact ⟨h1.append this.1, this.2⟩
          · split
            · exact ⟨h1, rfl, h4.mono mem_tail⟩
            · rfl

theorem mem_strip {s : Str} {c : Char} (h : c ∈ strip s) : c ∈ s := by
  unfold strip at h
  simp only [List.mem_reverse] at h
  have h1 := (List.dropWhile_sublist _).subset h
  simp only [List.mem_reverse] at h1
  exact (List.dropWhile_sublist _).subset h1

theorem mem_tokenize {path : Str} {c : Char} (h : c ∈ (tokenize path).flatten) : c ∈ path := by
  obtain ⟨ts, h1, h2⟩ := C128_cut path
  rw [h2] at h
  obtain ⟨t, ht, hc⟩ := List.mem_flatten.1 h
  obtain ⟨u, hu, rfl⟩ := List.mem_map.1 (List.mem_filter.1 ht).1
  have hcu := mem_strip hc
  clear ht h h2 hc
  induction h1 with
  | nil => cases hu
  | lost _ _ ih => exact List.mem_cons_of_mem _ (ih hu)
  | piece _ _ ih =>
    rcases List.mem_cons.1 hu with rfl | hu
    · exact List.mem_append_left _ hcu
    · exact List.mem_append_right _ (ih hu)

theorem iterfindN_same {c : PCfg} (hf : FreshAll c) (hal : ByType c.allowed) : ∀ n, SubR b (iterfindN c n) := by
  intro n
  induction n with
  | zero => intro v v' p _ _; exact ⟨.nil, rfl⟩
  | succ n ih =>
    intro v v' p h hn
    rw [iterfindN, iterfindN]
    split
    · exact ⟨.nil, rfl⟩
    · have ht : Neutral b (tokenize p).flatten := hn.mono fun c hc => mem_tokenize hc
      cases hp : tokenize p with
      | nil => exact ⟨.nil, rfl⟩
      | cons t ts => exact ((machine_same hf hal ih _).2.1 v v' (t :: ts) h (hp ▸ ht)).1

theorem findall_same {c : PCfg} (hf : FreshAll c) (hal : ByType c.allowed) {v v' : PV} (h : PvR b v v') {path : Str} (hn : Neutral b path) :
    PyR (Pairs2 (PvR b)) (findall c v path) (findall c v' path) := toList_same (iterfindN_same hf hal _ v v' path h hn)

theorem find_path_same {c : PCfg} (hf : FreshAll c) (hal : ByType c.allowed) {v v' : PV} (h : PvR b v v') {path : Str} (hn : Neutral b path) :
    PyR (PvR b) (find c v path) (find c v' path) := by
  obtain ⟨h1, h2⟩ := iterfindN_same hf hal (path.length + 1) v v' path h hn
  unfold find iterfind
  rw [h2]
  revert h1
  generalize (iterfindN c (path.length + 1) v path).vals = l
  generalize (iterfindN c (path.length + 1) v' path).vals = l'
  intro h1
  cases h1 with
  | cons h _ => exact h
  | nil =>
    simp only
    cases (iterfindN c (path.length + 1) v' path).err with
    | none => exact .none
    | some e => rfl

/-! ### What is found -/

/-- `findall`, `find` and, of the script, `count`, `unique` and `tally` with any second path give the same -/
def AnswersSame (b : Bool) (c : PCfg) (v v' : PV) (path : Str) : Prop :=
  PyR (Pairs2 (PvR b)) (findall c v path) (findall c v' path) ∧ PyR (PvR b) (find c v path) (find c v' path) ∧
  Qry.count c v path = Qry.count c v' path ∧ Qry.unique c v path = Qry.unique c v' path ∧
  ∀ sub, Neutral b sub → Qry.tally c v path sub = Qry.tally c v' path sub

theorem hashKey_same {v v' : PV} (h : PvR b v v') : Qry.hashKey v = Qry.hashKey v' := by cases h <;> rfl

theorem hashTuple_same {l l' : List PV} (h : Pairs2 (PvR b) l l') : Qry.hashTuple l = Qry.hashTuple l' := by
  induction h with
  | nil => rfl
  | cons h _ ih => simp only [Qry.hashTuple, hashKey_same h, ih]

theorem answers_same {c : PCfg} (hf : FreshAll c) (hal : ByType c.allowed) {v v' : PV} (h : PvR b v v') {path : Str} (hn : Neutral b path) :
    AnswersSame b c v v' path := by
  have h1 := findall_same hf hal h hn
  refine ⟨h1, find_path_same hf hal h hn, ?_, ?_, fun sub hsub => ?_⟩
  · unfold Qry.count
    revert h1
    cases findall c v path <;> cases findall c v' path <;> intro h1
    · simp only [PyR] at h1; subst h1; rfl
    · exact h1.elim
    · exact h1.elim
    · exact congrArg Except.ok (pairs_length h1)
  · unfold Qry.unique
    revert h1
    cases findall c v path <;> cases findall c v' path <;> intro h1
    · simp only [PyR] at h1; subst h1; rfl
    · exact h1.elim
    · exact h1.elim
    · rename_i l l'
      have : ∀ d, Qry.counter l d = Qry.counter l' d := by
        have h1' : Pairs2 (PvR b) l l' := h1
        clear h1
        induction h1' with
        | nil => intro d; rfl
        | cons h _ ih => intro d; simp only [Qry.counter, hashKey_same h, ih]
      simp only [bind, Except.bind, this]
  · unfold Qry.tally
    revert h1
    cases findall c v path <;> cases findall c v' path <;> intro h1
    · simp only [PyR] at h1; subst h1; rfl
    · exact h1.elim
    · exact h1.elim
    · rename_i l l'
      have : ∀ d, Qry.tallyLoop c sub l d = Qry.tallyLoop c sub l' d := by
        have h1' : Pairs2 (PvR b) l l' := h1
        clear h1
        induction h1' with
        | nil => intro d; rfl
        | @cons w w' l l' h _ ih =>
          intro d
          have hw := findall_same hf hal h hsub
          simp only [Qry.tallyLoop]
          revert hw
          cases findall c w sub <;> cases findall c w' sub <;> intro hw
          · simp only [PyR] at hw; subst hw; rfl
          · exact hw.elim
          · exact hw.elim
          · simp only [bind, Except.bind, hashTuple_same hw, ih]
      simp only [bind, Except.bind, this]

/-- **C143** for equal corpora (`==`) or other equal objects without a parent, and paths without prefixes and `@*`. -/
theorem C143_partial (c : PCfg) (hf : FreshAll c) (hal : ByType c.allowed) (x y : Obj) (hx : x.WF) (hy : y.WF) (hc : x.cls = y.cls) (he : Obj.eq x y = true)
    (path : Str) (h1 : ':' ∉ path) (h2 : '@' ∉ path ∨ '*' ∉ path) : AnswersSame false c (.node x []) (.node y []) path :=
  answers_same hf hal (.node (.cons ⟨⟨(C10_eq_is_same_data x y hx hy hc).1 he, hx⟩, (fun h => by cases h)⟩ .nil)) fun _ => ⟨h1, h2⟩

/-- **C143** for all paths, and from all places in the corpora: if also prefixes stand for the same and attributes are in the
same order. -/
theorem C143_alike_partial (c : PCfg) (hf : FreshAll c) (hal : ByType c.allowed) (x y : Obj) (up up' : List Obj)
    (h : ChainR true (x :: up) (y :: up')) (path : Str) : AnswersSame true c (.node x up) (.node y up') path :=
  answers_same hf hal (.node h) (fun h => by cases h)

variable [XmlLex]

theorem written_self {m : Dict Str Str} (hm : m.WF) : written m m = [] := by
  unfold written
  rw [List.filter_eq_nil_iff]
  intro p hp
  rw [Dict.get?_of_mem hm hp]
  simp

theorem alike_refl : ∀ (x : Obj) (m m' : Dict Str Str), (∀ p, Dict.get? m p = Dict.get? m' p) → Alike m m' x x := by
  refine Obj.ind fun d md kids h1 h2 m m' h => ?_
  have ho : ∀ p, Dict.get? (ownNs (.mk d md kids) m) p = Dict.get? (ownNs (.mk d md kids) m') p := by
    intro p
    unfold ownNs
    rw [Obj.data_mk]
    cases d.nsmap with
    | none => exact h p
    | some m => rfl
  refine .mk ho rfl ?_ ?_ <;> intro i a b ha hb <;> rw [ha] at hb <;> cases hb
  · exact h1 a (List.mem_of_getElem? ha) _ _ ho
  · exact h2 a (List.mem_of_getElem? ha) _ _ ho

theorem alike_noOwn {m scope : Dict Str Str} (hm : m.WF) (h : ∀ p, Dict.get? m p = Dict.get? scope p) : ∀ x : Obj, NoOwnNs x → Alike m scope x (xres scope m x) := by
  refine Obj.ind fun d md kids h1 h2 hno => ?_
  cases hno with
  | mk hd hmd hks =>
    have e : effNs d m = m := by unfold effNs; rw [hd]; rfl
    have es : scopeIn d scope m = scope := by unfold scopeIn; rw [e, written_self hm]; rfl
    rw [xres_mk, e, es]
    have o1 : ownNs (.mk d md kids) m = m := by unfold ownNs; rw [Obj.data_mk, hd]; rfl
    have o2 : ∀ md' ks', ownNs (.mk { d with nsmap := some scope } md' ks') scope = scope := fun _ _ => rfl
    refine .mk ?_ rfl ?_ ?_
    · rw [o1, o2]; exact h
    · intro i a b ha hb
      rw [o1, o2]
      simp only [Obj.md_mk, List.getElem?_map] at ha hb
      rw [ha] at hb
      cases hb
      exact h1 a (List.mem_of_getElem? ha) (hmd a (List.mem_of_getElem? ha))
    · intro i a b ha hb
      rw [o1, o2]
      simp only [Obj.kids_mk, List.getElem?_map] at ha hb
      rw [ha] at hb
      cases hb
      exact h2 a (List.mem_of_getElem? ha) (hks a (List.mem_of_getElem? ha))

theorem alike_loaded {x : Obj} (hv : x.Valid) (hmd : ∀ y ∈ x.md, NoOwnNs y) (hkids : ∀ y ∈ x.kids, NoOwnNs y) : Alike [] [] x (xres [] [] x) := by
  obtain ⟨d, md, kids⟩ := x
  have hwf : (effNs d []).WF := by
    unfold effNs
    cases hm : d.nsmap with
    | none => exact Dict.wf_nil
    | some m => cases hv with | mk _ _ _ _ h _ _ => exact h m hm
  have es : scopeIn d [] [] = effNs d [] := by
    unfold scopeIn written
    rw [List.filter_eq_self.2 (by intro p _; rfl), update_nil hwf]
  rw [xres_mk, es]
  simp only [Obj.md_mk, Obj.kids_mk] at hmd hkids
  refine .mk (fun p => rfl) rfl ?_ ?_
  · intro i a b ha hb
    simp only [Obj.md_mk, List.getElem?_map] at ha hb
    rw [ha] at hb
    cases hb
    exact alike_noOwn hwf (fun _ => rfl) a (hmd a (List.mem_of_getElem? ha))
  · intro i a b ha hb
    simp only [Obj.kids_mk, List.getElem?_map] at ha hb
    rw [ha] at hb
    cases hb
    exact alike_noOwn hwf (fun _ => rfl) a (hkids a (List.mem_of_getElem? ha))

/-- what is loaded from the file of a corpus is like it -/
theorem xml_kid (x : Obj) (hc : x.cls = .corpus) (hw : x.WF) (hv : x.Valid)
    (hk : XmlKept [] x) (hn : NamesOK [] x) (hmd : ∀ y ∈ x.md, NoOwnNs y) (hkids : ∀ y ∈ x.kids, NoOwnNs y) (look : Nat → Nat) (ind : Option Int) :
    ∃ s y, dumpsXml ind x = .ok s ∧ loadsXml look s = .ok y ∧ KidR true [] [] x y := by
  obtain ⟨e, p, h1, h2, h3, h4⟩ := x_corpus hc hw hv hk
  have h5 : writeRead look ind x = .ok (xres [] [] x) := by
    rw [writeRead_eq hn h1 h2 h3 look look ind]
    exact ((C42_partial p (written_layout hn h1 h2 h3)).2.1 look _).2 h4
  have h5' := h5
  simp only [writeRead, bind, Except.bind] at h5'
  split at h5'
  · cases h5'
  · rename_i e he
    split at h5'
    · cases h5'
    · rename_i p hp
      obtain ⟨s, s1, _, s3⟩ := C90_layer x ind e p he hp look
      exact ⟨s, xres [] [] x, s1, s3.trans h5, ⟨(xres_same x _ _).symm, hw⟩, fun _ => alike_loaded hv hmd hkids⟩

/-- **C143** for XML: what any path finds in a corpus is found in what is loaded from its file, if XML keeps its data (C40) and at
most the corpus itself declares namespaces. -/
theorem C143_xml_partial (c : PCfg) (hf : FreshAll c) (hal : ByType c.allowed) (x : Obj) (hc : x.cls = .corpus) (hw : x.WF) (hv : x.Valid)
    (hk : XmlKept [] x) (hn : NamesOK [] x) (hmd : ∀ y ∈ x.md, NoOwnNs y) (hkids : ∀ y ∈ x.kids, NoOwnNs y) (look : Nat → Nat) (ind : Option Int) :
    ∃ s y, dumpsXml ind x = .ok s ∧ loadsXml look s = .ok y ∧ ∀ path, AnswersSame true c (.node x []) (.node y []) path := by
  obtain ⟨s, y, h1, h2, h3⟩ := xml_kid x hc hw hv hk hn hmd hkids look ind
  exact ⟨s, y, h1, h2, fun path => C143_alike_partial c hf hal x y [] [] (.cons h3 .nil) path⟩

/-- **C143** for JSON, in the same way (C67). -/
theorem C143_json_partial (c : PCfg) (hf : FreshAll c) (hal : ByType c.allowed) (x : Obj) (hc : x.cls = .corpus) (hw : x.WF) (hv : x.Valid)
    (hk : JsonKept noScope x) (hns : x.data.nsmap ≠ some []) (hmd : ∀ y ∈ x.md, NoOwnNs y) (hkids : ∀ y ∈ x.kids, NoOwnNs y) (ind : Option Int) :
    ∃ s y, dumpsJson ind x = .ok s ∧ loadsJson s = .ok y ∧ ∀ path, AnswersSame true c (.node x []) (.node y []) path := by
  obtain ⟨j, h1, h2⟩ := C67_partial x hc hw hv hk hns hmd hkids
  refine ⟨jsonDumps ind j, x, ?_, ?_, fun path => C143_alike_partial c hf hal _ _ _ _ (.cons ⟨⟨?_, hw⟩, fun _ => ?_⟩ .nil) path⟩
  · simp only [dumpsJson, h1, bind, Except.bind, pure, Except.pure]
  · simp only [loadsJson, C91_layer ind j (jok_corpus x j h1), bind, Except.bind, h2]
  · exact SameData.refl x
  · exact alike_refl x [] [] fun _ => rfl

end

section
attribute [local instance] asciiUni

/-- the configuration of igts as they are after loading -/
def stdCfg : PCfg := { depth := 9, allowed := stdAllowed, index := fun igt => (newIgt stdAllowed igt).itemdict }

theorem stdCfg_fresh : FreshAll stdCfg ∧ ByType stdCfg.allowed := ⟨fun _ => rfl, stdAllowed_byType⟩

/-- a corpus with an igt that has the attributes -/
def exAtts (ns : Option (Dict Str Str)) (attrs : Dict Str Str) : Obj :=
  .mk { cls := .corpus, nsmap := ns } [] [.mk { cls := .igt, id := some (lit! "i1"), attrs := attrs } [] []]

/-- **C143** is false of `@*`, which gives attributes in the order they were given in: corpora that are equal answer
differently. -/
theorem C143_refuted_order : ∃ x y : Obj, x.WF ∧ y.WF ∧ x.cls = y.cls ∧ Obj.eq x y = true ∧
    labels (findall stdCfg (.node x []) (lit! "igt/@*")) = .ok [sr (lit! "1"), sr (lit! "2")] ∧
    labels (findall stdCfg (.node y []) (lit! "igt/@*")) = .ok [sr (lit! "2"), sr (lit! "1")] :=
  ⟨exAtts none [(lit! "a", lit! "1"), (lit! "b", lit! "2")], exAtts none [(lit! "b", lit! "2"), (lit! "a", lit! "1")],
    wf_of_B (n := 9) (by decide +kernel), wf_of_B (n := 9) (by decide +kernel), rfl, by decide +kernel, by decide +kernel, by decide +kernel⟩

/-- **C143** is false of prefixes: which namespaces are declared does not count for `==`. -/
theorem C143_refuted_prefix : ∃ x y : Obj, x.WF ∧ y.WF ∧ x.cls = y.cls ∧ Obj.eq x y = true ∧
    labels (findall stdCfg (.node x []) (lit! "igt/@p:k")) = .ok [sr (lit! "v")] ∧
    labels (findall stdCfg (.node y []) (lit! "igt/@p:k")) = .ok [(lit! "None", [])] :=
  ⟨exAtts (some [(lit! "p", lit! "u")]) [(lit! "{u}k", lit! "v")], exAtts none [(lit! "{u}k", lit! "v")],
    wf_of_B (n := 9) (by decide +kernel), wf_of_B (n := 9) (by decide +kernel), rfl, by decide +kernel, by decide +kernel, by decide +kernel⟩

/-- the hypotheses of `C143_partial` are met by corpora that are not the same, and a path with results -/
example : ∃ x y : Obj, x ≠ y ∧ x.WF ∧ y.WF ∧ x.cls = y.cls ∧ Obj.eq x y = true ∧ ':' ∉ (lit! "//igt[@b=\"2\"]/@a") ∧
    ('@' ∉ (lit! "//igt[@b=\"2\"]/@a") ∨ '*' ∉ (lit! "//igt[@b=\"2\"]/@a")) ∧
    labels (findall stdCfg (.node x []) (lit! "//igt[@b=\"2\"]/@a")) = .ok [sr (lit! "1")] := by
  refine ⟨exAtts none [(lit! "a", lit! "1"), (lit! "b", lit! "2")], exAtts none [(lit! "b", lit! "2"), (lit! "a", lit! "1")], ?_,
    wf_of_B (n := 9) (by decide +kernel), wf_of_B (n := 9) (by decide +kernel), rfl, by decide +kernel, by decide, .inr (by decide), by decide +kernel⟩
  intro h
  have := congrArg (fun o : Obj => o.kids.map fun k => k.data.attrs) h
  revert this
  decide

/-- those of `C143_xml_partial` that are not of C40 (see StreamProps), by the corpus there -/
example : (∀ y ∈ exXml.md, NoOwnNs y) ∧ (∀ y ∈ exXml.kids, NoOwnNs y) := by
  constructor
  · intro y hy
    simp only [exXml, Obj.md_mk, List.mem_singleton] at hy
    subst hy
    refine .mk rfl (by simp) fun y hy => ?_
    rw [List.mem_singleton] at hy
    subst hy
    refine .mk rfl (by simp) fun y hy => ?_
    rw [List.mem_singleton] at hy
    subst hy
    exact .mk rfl (by simp) (by simp)
  · intro y hy
    simp only [exXml, Obj.kids_mk, List.mem_singleton] at hy
    subst hy
    exact .mk rfl (by simp) (by simp)

end
end Xigt.XP
