import Verif.Path.Same
import Verif.Scripts.SortModel
/- C145: equal corpora are sorted to equal corpora. -/

set_option linter.unusedSectionVars false

namespace Xigt.Srt
open Xigt.XP

/-! ### Spec -/

/-- both have not ended, or both have raised the same, or both have results, which are so -/
def RunR {α : Type} (R : α → α → Prop) : Run α → Run α → Prop
  | none, none => True
  | some p, some q => PyR R p q
  | _, _ => False

/-! ### Lemmas -/

theorem pyR_bind {α β : Type} {R : α → α → Prop} {S : β → β → Prop} {p q : Py α} (h : PyR R p q) {f g : α → Py β}
    (hf : ∀ a b, R a b → PyR S (f a) (g b)) : PyR S (p >>= f) (q >>= g) := by
  revert h
  cases p <;> cases q <;> intro h
  · exact h
  · exact h.elim
  · exact h.elim
  · exact hf _ _ h

theorem runR_then {α β : Type} {R : α → α → Prop} {S : β → β → Prop} {p q : Run α} (h : RunR R p q) {f g : α → Run β}
    (hf : ∀ a b, R a b → RunR S (f a) (g b)) : RunR S (thenRun p f) (thenRun q g) := by
  revert h
  rcases p with _ | _ | _ <;> rcases q with _ | _ | _ <;> intro h
  all_goals first
    | exact h
    | exact h.elim
    | exact hf _ _ h
    | skip

theorem same_wf {x y : Obj} (h : SameData x y) : x.WF → y.WF := by
  induction h with
  | @mk a b md md' ks ks' h1 h2 h3 h4 h5 h6 h7 h8 h9 g1 g2 ih1 ih2 =>
    intro hw
    cases hw with
    | mk w1 w2 w3 w4 w5 w6 w7 w8 =>
      have back : ∀ {l l' : List Obj}, l.length = l'.length → ∀ (P : Obj → Obj → Prop), (∀ (i : Nat) x y, l[i]? = some x → l'[i]? = some y → P x y) →
          ∀ y ∈ l', ∃ x ∈ l, P x y := by
        intro l l' hl P hP y hy
        obtain ⟨i, hi, rfl⟩ := List.mem_iff_getElem.1 hy
        have hi' : i < l.length := hl ▸ hi
        exact ⟨l[i], List.getElem_mem hi', hP i _ _ (List.getElem?_eq_getElem hi') (List.getElem?_eq_getElem hi)⟩
      refine .mk ?_ ?_ ?_ ?_ ?_ ?_ ?_ ?_
      · exact (List.Perm.nodup_iff (h7.map Prod.fst)).1 w1
      · rw [← h1, ← h5]; exact w2
      · rw [← h6, ← h1]; exact w3
      · intro hm
        rw [← h1] at hm
        have := w4 hm
        subst this
        exact List.length_eq_zero_iff.1 h8.symm
      · intro y hy
        obtain ⟨x, hx, hxy⟩ := back h8 _ g1 y hy
        rw [← hxy.cls]; exact w5 x hx
      · intro y hy
        obtain ⟨x, hx, hxy⟩ := back h9 _ g2 y hy
        rw [← hxy.cls, ← h1]; exact w6 x hx
      · intro y hy
        obtain ⟨x, hx, hxy⟩ := back h8 _ ih1 y hy
        exact hxy (w7 x hx)
      · intro y hy
        obtain ⟨x, hx, hxy⟩ := back h9 _ ih2 y hy
        exact hxy (w8 x hx)

section
variable [Uni] {b : Bool}

theorem keyStr_equal {c : PCfg} (hf : FreshAll c) (hal : ByType c.allowed) {v v' : PV} (h : PvR b v v') {sk : Str} (hn : Neutral b sk) :
    keyStr c v sk = keyStr c v' sk := by
  have := find_path_same hf hal h hn
  unfold keyStr
  revert this
  cases find c v sk <;> cases find c v' sk <;> intro this
  · cases this; rfl
  · exact this.elim
  · exact this.elim
  · have this : PvR b _ _ := this
    simp only [bind, Except.bind]
    cases this with
    | @node x y up up' h =>
      simp only
      rw [Sm.cls h.sm]
      have := h.sm.kids.1
      cases hx : x.kids <;> cases hy : y.kids <;> simp [hx, hy] at this ⊢
    | str s => rfl
    | none => rfl
    | list h =>
      cases h <;> simp

theorem sortKey_same {c : PCfg} (hf : FreshAll c) (hal : ByType c.allowed) {v v' : PV} (h : PvR b v v') : ∀ {sks : List Str}, (∀ sk ∈ sks, Neutral b sk) →
    sortKey c v sks = sortKey c v' sks := by
  intro sks
  induction sks with
  | nil => intro _; rfl
  | cons sk sks ih =>
    intro hn
    rw [sortKey, sortKey, keyStr_equal hf hal h (hn sk List.mem_cons_self), ih fun s hs => hn s (List.mem_cons_of_mem _ hs)]

/-- a key and an object -/
def KeyR {α : Type} (R : α → α → Prop) (p q : List KPart × α) : Prop := p.1 = q.1 ∧ R p.2 q.2

theorem insertPy_same {α β : Type} {R : α → α → Prop} {lt : α → α → Py Bool} (hlt : ∀ a b c d, R a b → R c d → lt a c = lt b d)
    {x y : α} (h : R x y) {l l' : List α} (hl : Pairs2 R l l') : PyR (Pairs2 R) (insertPy lt x l) (insertPy lt y l') := by
  induction hl with
  | nil => exact .cons h .nil
  | @cons u v l l' huv hl ih =>
    rw [insertPy, insertPy, hlt _ _ _ _ huv h]
    cases lt v y with
    | error e => rfl
    | ok t =>
      simp only [bind, Except.bind]
      cases t with
      | false => exact .cons h (.cons huv hl)
      | true => exact pyR_bind ih fun a b hab => .cons huv hab

theorem sortPy_same {α : Type} {R : α → α → Prop} {lt : α → α → Py Bool} (hlt : ∀ a b c d, R a b → R c d → lt a c = lt b d)
    {l l' : List α} (hl : Pairs2 R l l') : PyR (Pairs2 R) (sortPy lt l) (sortPy lt l') := by
  induction hl with
  | nil => exact .nil
  | cons h _ ih =>
    rw [sortPy, sortPy]
    exact pyR_bind ih fun a b hab => insertPy_same (β := Unit) hlt h hab

/-- the same object with other contents -/
theorem kidR_mk {m m' : Dict Str Str} {x y : Obj} (h : KidR b m m' x y) {ks ks' : List Obj} (hk : Pairs2 (KidR b (ownNs x m) (ownNs y m')) ks ks')
    (hc : ∀ z ∈ ks, some z.cls = x.cls.contained) : KidR b m m' (.mk x.data x.md ks) (.mk y.data y.md ks') := by
  have hg : ∀ (i : Nat) a c, ks[i]? = some a → ks'[i]? = some c → KidR b (ownNs x m) (ownNs y m') a c := by
    intro i a c ha hc
    rcases pairs_get hk i with ⟨h1, -⟩ | ⟨p, q, h1, h2, h3⟩
    · rw [ha] at h1; cases h1
    · rw [ha] at h1; rw [hc] at h2; cases h1; cases h2; exact h3
  obtain ⟨⟨hs, hw⟩, ha⟩ := h
  refine ⟨⟨?_, ?_⟩, fun hb => ?_⟩
  · cases hs with
    | mk h1 h2 h3 h4 h5 h6 h7 h8 h9 h10 h11 =>
      exact .mk h1 h2 h3 h4 h5 h6 h7 h8 (pairs_length hk) h10 fun i a c ha hc => (hg i a c ha hc).1.1
  · cases hw with
    | mk w1 w2 w3 w4 w5 w6 w7 w8 =>
      refine .mk w1 w2 w3 w4 w5 hc w7 fun z hz => ?_
      obtain ⟨i, hi, rfl⟩ := List.mem_iff_getElem.1 hz
      have hi' : i < ks'.length := pairs_length hk ▸ hi
      exact (hg i _ _ (List.getElem?_eq_getElem hi) (List.getElem?_eq_getElem hi')).1.2
  · have := ha hb
    cases this with
    | mk a1 a2 a3 a4 => exact .mk a1 a2 a3 fun i a c ha hc => (hg i a c ha hc).2 hb


theorem pairs_and {α : Type} {R : α → α → Prop} {P : α → Prop} {l l' : List α} (h : Pairs2 R l l') (hp : ∀ x ∈ l, P x) : Pairs2 (fun x y => R x y ∧ P x) l l' := by
  induction h with
  | nil => exact .nil
  | cons h _ ih => exact .cons ⟨h, hp _ List.mem_cons_self⟩ (ih fun x hx => hp x (List.mem_cons_of_mem _ hx))

theorem pairs_left {α : Type} {R : α → α → Prop} {P : α → Prop} {l l' : List α} (h : Pairs2 (fun x y => R x y ∧ P x) l l') : ∀ x ∈ l, P x := by
  induction h with
  | nil => simp
  | cons h _ ih =>
    intro x hx
    rcases List.mem_cons.1 hx with rfl | hx
    · exact h.2
    · exact ih x hx

theorem KidR.contained {m m' : Dict Str Str} {x y : Obj} (h : KidR b m m' x y) : ∀ z ∈ x.kids, some z.cls = x.cls.contained := by
  have := h.1.2
  cases this with
  | mk _ _ _ _ _ w6 => exact w6

theorem withKeys_same {c : PCfg} (hf : FreshAll c) (hal : ByType c.allowed) {sks : List Str} (hn : ∀ sk ∈ sks, Neutral b sk) {up up' : List Obj}
    (hu : ChainR b up up') {P : Obj → Prop} {l l' : List Obj} (hl : Pairs2 (fun x y => KidR b (nsmapOf up) (nsmapOf up') x y ∧ P x) l l') :
    PyR (Pairs2 (KeyR fun x y => KidR b (nsmapOf up) (nsmapOf up') x y ∧ P x)) (withKeys c sks up l) (withKeys c sks up' l') := by
  induction hl with
  | nil => exact .nil
  | @cons x y l l' hxy _ ih =>
    rw [withKeys, withKeys, sortKey_same hf hal (.node (.cons hxy.1 hu)) hn]
    cases sortKey c (.node y up') sks with
    | error e => rfl
    | ok k => exact pyR_bind ih fun a b hab => .cons ⟨rfl, hxy⟩ hab

theorem sortKids_same {c : PCfg} (hf : FreshAll c) (hal : ByType c.allowed) {sks : List Str} (hn : ∀ sk ∈ sks, Neutral b sk) {x y : Obj} {up up' : List Obj}
    (h : ChainR b (x :: up) (y :: up')) : PyR (KidR b (nsmapOf up) (nsmapOf up')) (sortKids c sks x up) (sortKids c sks y up') := by
  cases h with
  | cons h hu =>
    have h0 : ChainR b (.mk x.data x.md [] :: up) (.mk y.data y.md [] :: up') := .cons (kidR_mk h .nil (by simp)) hu
    have hk : Pairs2 (fun u v => KidR b (nsmapOf (.mk x.data x.md [] :: up)) (nsmapOf (.mk y.data y.md [] :: up')) u v ∧ some u.cls = x.cls.contained) x.kids y.kids := by
      rw [nsmapOf_cons, nsmapOf_cons]
      exact pairs_and h.kids (KidR.contained h)
    unfold sortKids
    refine pyR_bind (withKeys_same hf hal hn h0 hk) fun a a' ha => pyR_bind (sortPy_same (fun p q r t h1 h2 => by simp only [h1.1, h2.1]) ha) fun r r' hr => ?_
    have hm := pairs_map (f := Prod.snd) (g := Prod.snd) (fun _ _ (h : KeyR _ _ _) => h.2) hr
    have hm' := pairs_mono (fun _ _ h => h.1) hm
    rw [nsmapOf_cons, nsmapOf_cons] at hm'
    exact kidR_mk h hm' (pairs_left hm)

theorem forKids_same {f : Obj → List Obj → Run Obj} {x y : Obj} {up up' : List Obj} (h : ChainR b (x :: up) (y :: up')) {P : Obj → Prop}
    (hf : ∀ u v, P u → ChainR b (u :: x :: up) (v :: y :: up') → RunR (fun u v => KidR b (nsmapOf (x :: up)) (nsmapOf (y :: up')) u v ∧ P u) (f u (x :: up)) (f v (y :: up')))
    {l l' : List Obj} (hl : Pairs2 (fun u v => KidR b (nsmapOf (x :: up)) (nsmapOf (y :: up')) u v ∧ P u) l l') :
    RunR (Pairs2 (fun u v => KidR b (nsmapOf (x :: up)) (nsmapOf (y :: up')) u v ∧ P u)) (forKids f x up l) (forKids f y up' l') := by
  induction hl with
  | nil => exact Pairs2.nil
  | @cons u v l l' huv _ ih =>
    rw [forKids, forKids]
    have := hf u v huv.2 (.cons huv.1 h)
    revert this
    rcases f u (x :: up) with _ | _ | _ <;> rcases f v (y :: up') with _ | _ | _ <;> intro this
    all_goals first
      | exact this
      | exact this.elim
      | skip
    revert ih
    rcases forKids f x up l with _ | _ | _ <;> rcases forKids f y up' l' with _ | _ | _ <;> intro ih
    all_goals first
      | exact ih
      | exact ih.elim
      | exact Pairs2.cons this ih
      | skip

/-- the class of an object is kept by sorting -/
def Keeps (f : Obj → List Obj → Run Obj) : Prop := ∀ x up y, f x up = some (.ok y) → y.cls = x.cls

theorem eachKid_equal {f : Obj → List Obj → Run Obj} (hk : Keeps f) {x y : Obj} {up up' : List Obj} (h : ChainR b (x :: up) (y :: up'))
    (hf : ∀ u v, ChainR b (u :: x :: up) (v :: y :: up') → RunR (KidR b (nsmapOf (x :: up)) (nsmapOf (y :: up'))) (f u (x :: up)) (f v (y :: up'))) :
    RunR (KidR b (nsmapOf up) (nsmapOf up')) (eachKid f x up) (eachKid f y up') := by
  have h' := h
  cases h' with
  | cons hxy hu =>
    have hl : Pairs2 (fun u v => KidR b (nsmapOf (x :: up)) (nsmapOf (y :: up')) u v ∧ some u.cls = x.cls.contained) x.kids y.kids := by
      rw [nsmapOf_cons, nsmapOf_cons]
      exact pairs_and hxy.kids (KidR.contained hxy)
    have := forKids_same (f := f) h (fun u v hp hc => by
      have h1 := hf u v hc
      cases h2 : f u (x :: up) with
      | none => rw [h2] at h1; cases h3 : f v (y :: up') with
        | none => exact True.intro
        | some q => rw [h3] at h1; exact h1.elim
      | some p =>
        rw [h2] at h1
        cases h3 : f v (y :: up') with
        | none => rw [h3] at h1; exact h1.elim
        | some q =>
          rw [h3] at h1
          cases p <;> cases q
          · exact h1
          · exact h1.elim
          · exact h1.elim
          · exact ⟨h1, by rw [hk u _ _ h2]; exact hp⟩) hl
    unfold eachKid
    revert this
    rcases forKids f x up x.kids with _ | _ | _ <;> rcases forKids f y up' y.kids with _ | _ | _ <;> intro this
    all_goals first
      | exact this
      | exact this.elim
      | skip
    have hm' := pairs_mono (fun _ _ h => h.1) this
    rw [nsmapOf_cons, nsmapOf_cons] at hm'
    exact kidR_mk hxy hm' (pairs_left this)


theorem insertBy_same {α : Type} {R : α → α → Prop} {le le' : α → α → Bool} (hle : ∀ a b c d, R a b → R c d → le a c = le' b d)
    {x y : α} (h : R x y) {l l' : List α} (hl : Pairs2 R l l') : Pairs2 R (insertBy le x l) (insertBy le' y l') := by
  induction hl with
  | nil => exact .cons h .nil
  | cons huv hl ih =>
    rw [insertBy, insertBy, hle _ _ _ _ h huv]
    split
    · exact .cons h (.cons huv hl)
    · exact .cons huv ih

theorem sortBy_same {α : Type} {R : α → α → Prop} {le le' : α → α → Bool} (hle : ∀ a b c d, R a b → R c d → le a c = le' b d)
    {l l' : List α} (hl : Pairs2 R l l') : Pairs2 R (sortBy le l) (sortBy le' l') := by
  induction hl with
  | nil => exact .nil
  | cons h _ ih => exact insertBy_same hle h ih

section
variable {R : Obj → Obj → Prop} (hR : ∀ x y, R x y → Sm x y)
include hR

theorem sortIdx_equal {l l' : List Obj} (hl : Pairs2 R l l') : sortIdx l = sortIdx l' := by
  unfold sortIdx
  have : ∀ (n : Nat) (d : Dict (Option Str) Nat), (l.zipIdx n).foldl (fun d p => Dict.set d p.1.data.id p.2) d =
      (l'.zipIdx n).foldl (fun d p => Dict.set d p.1.data.id p.2) d := by
    induction hl with
    | nil => intro n d; rfl
    | cons h _ ih =>
      intro n d
      rw [List.zipIdx_cons, List.zipIdx_cons, List.foldl_cons, List.foldl_cons]
      simp only [(hR _ _ h).id]
      exact ih _ _
  exact this 1 []

theorem firstRef_equal {x y : Obj} (h : R x y) (refattrs : List Str) : firstRef refattrs x = firstRef refattrs y := by
  unfold firstRef
  simp only [Dict.has, (hR _ _ h).attr, attr0_same (hR _ _ h)]

theorem sortPr_equal {l l' : List Obj} (hl : Pairs2 R l l') (refattrs : List Str) : sortPr refattrs l = sortPr refattrs l' := by
  unfold sortPr
  refine Pairs2.foldl (fun d x y h => ?_) hl _
  unfold prStep
  rw [firstRef_equal hR h, (hR _ _ h).id]

theorem tierKeys_equal (n : Nat) (idx : Dict (Option Str) Nat) (pr : Dict (Option Str) (Str × Nat)) {l l' : List Obj} (hl : Pairs2 R l l') :
    ∀ d, tierKeys n idx pr l d = tierKeys n idx pr l' d := by
  induction hl with
  | nil => intro d; rfl
  | cons h _ ih =>
    intro d
    rw [tierKeys, tierKeys]
    simp only [tierKey, (hR _ _ h).id]
    split
    · rfl
    · rfl
    · exact ih _

theorem sortTiers_equal (n : Nat) (refattrs : List Str) {l l' : List Obj} (hl : Pairs2 R l l') :
    RunR (Pairs2 R) (sortTiers n refattrs l) (sortTiers n refattrs l') := by
  unfold sortTiers
  rw [sortIdx_equal hR hl, sortPr_equal hR hl, tierKeys_equal hR n _ _ hl]
  split
  · trivial
  · rfl
  · exact sortBy_same (fun a b c d h1 h2 => by simp only [(hR _ _ h1).id, (hR _ _ h2).id]) hl
end

theorem depSort_same (n : Nat) (deps : List Str) {m m' : Dict Str Str} {x y : Obj} (h : KidR b m m' x y) :
    RunR (KidR b m m') (depSort n deps x) (depSort n deps y) := by
  have := sortTiers_equal (R := fun u v => KidR b (ownNs x m) (ownNs y m') u v ∧ some u.cls = x.cls.contained) (fun _ _ h => h.1.1) n deps
    (pairs_and h.kids (KidR.contained h))
  unfold depSort
  revert this
  rcases sortTiers n deps x.kids with _ | _ | _ <;> rcases sortTiers n deps y.kids with _ | _ | _ <;> intro this
  all_goals first
    | exact this
    | exact this.elim
    | skip
  exact kidR_mk h (pairs_mono (fun _ _ h => h.1) this) (pairs_left this)

theorem bind_ok' {α β : Type} {x : Py α} {f : α → Py β} {y : β} (h : (x >>= f) = .ok y) : ∃ a, x = .ok a ∧ f a = .ok y := by
  cases x with
  | error e => cases h
  | ok a => exact ⟨a, rfl, h⟩

theorem keeps_sort (c : PCfg) (sks : List Str) : Keeps fun x up => some (sortKids c sks x up) := by
  intro x up y h
  simp only [Option.some.injEq] at h
  unfold sortKids at h
  obtain ⟨l, _, h⟩ := bind_ok' h
  obtain ⟨r, _, h⟩ := bind_ok' h
  cases h
  rfl

theorem keeps_dep (n : Nat) (deps : List Str) : Keeps fun x _ => depSort n deps x := by
  intro x up y h
  simp only [depSort] at h
  revert h
  rcases sortTiers n deps x.kids with _ | _ | _
  · intro h; cases h
  · intro h; cases h
  · intro h; cases h; rfl

theorem keeps_each (f : Obj → List Obj → Run Obj) : Keeps fun x up => eachKid f x up := by
  intro x up y h
  simp only [eachKid] at h
  revert h
  rcases forKids f x up x.kids with _ | _ | _
  · intro h; cases h
  · intro h; cases h
  · intro h; cases h; rfl

theorem run_same {c : PCfg} (hf : FreshAll c) (hal : ByType c.allowed) (n : Nat) (a : Args) (hn : ∀ sk ∈ a.igtKey ++ a.tierKey ++ a.itemKey, Neutral b sk) {x y : Obj}
    (h : KidR b [] [] x y) : RunR (KidR b [] []) (run c n a x) (run c n a y) := by
  unfold run
  refine runR_then (R := KidR b [] []) ?_ fun x y h => runR_then (R := KidR b [] []) ?_ fun x y h => ?_
  · split
    · exact sortKids_same hf hal (fun sk hsk => hn sk (by simp [hsk])) (.cons h .nil)
    · exact h
  · split
    · exact eachKid_equal (keeps_sort _ _) (.cons h .nil) fun u v hc => sortKids_same hf hal (fun sk hsk => hn sk (by simp [hsk])) hc
    · split
      · refine eachKid_equal (keeps_dep _ _) (.cons h .nil) fun u v hc => ?_
        cases hc with
        | cons hc _ => exact depSort_same n _ hc
      · exact h
  · split
    · exact eachKid_equal (keeps_each _) (.cons h .nil) fun u v hc => eachKid_equal (keeps_sort _ _) hc fun u v hc =>
        sortKids_same hf hal (fun sk hsk => hn sk (by simp [hsk])) hc
    · exact h

/-- equal corpora, which `==` says -/
def Equal (x y : Obj) : Prop := x.WF ∧ y.WF ∧ x.cls = y.cls ∧ Obj.eq x y = true

theorem KidR.equal {m m' : Dict Str Str} {x y : Obj} (h : KidR b m m' x y) : Equal x y :=
  have hy := same_wf h.1.1 h.1.2
  ⟨h.1.2, hy, h.1.1.cls, (C10_eq_is_same_data x y h.1.2 hy h.1.1.cls).2 h.1.1⟩

theorem runR_mono {α : Type} {R S : α → α → Prop} (h : ∀ a b, R a b → S a b) {p q : Run α} (hp : RunR R p q) : RunR S p q := by
  revert hp
  rcases p with _ | _ | _ <;> rcases q with _ | _ | _ <;> intro hp
  all_goals first
    | exact hp
    | exact hp.elim
    | exact h _ _ hp
    | skip

/-- **C145**, if the keys have no prefixes and no `@*`: equal corpora are sorted to equal ones, or sorting them raises the same. -/
theorem C145_sort_partial (c : PCfg) (hf : FreshAll c) (hal : ByType c.allowed) (n : Nat) (a : Args) (x y : Obj) (h : Equal x y)
    (hn : ∀ sk ∈ a.igtKey ++ a.tierKey ++ a.itemKey, ':' ∉ sk ∧ ('@' ∉ sk ∨ '*' ∉ sk)) : RunR Equal (run c n a x) (run c n a y) :=
  runR_mono (fun _ _ => KidR.equal) (run_same (b := false) hf hal n a (fun sk hsk _ => hn sk hsk)
    ⟨⟨(C10_eq_is_same_data x y h.1 h.2.1 h.2.2.1).1 h.2.2.2, h.1⟩, (fun h => by cases h)⟩)

/-- **C145** for all keys, of a corpus and what is loaded from its file: if XML keeps its data (C40) and at most the corpus itself declares
namespaces. -/
theorem C145_xml_partial [XmlLex] (c : PCfg) (hf : FreshAll c) (hal : ByType c.allowed) (n : Nat) (a : Args) (x : Obj) (hc : x.cls = .corpus) (hw : x.WF) (hv : x.Valid)
    (hk : XmlKept [] x) (hn : NamesOK [] x) (hmd : ∀ y ∈ x.md, NoOwnNs y) (hkids : ∀ y ∈ x.kids, NoOwnNs y) (look : Nat → Nat) (ind : Option Int) :
    ∃ s y, dumpsXml ind x = .ok s ∧ loadsXml look s = .ok y ∧ RunR Equal (run c n a x) (run c n a y) := by
  obtain ⟨s, y, h1, h2, h3⟩ := xml_kid x hc hw hv hk hn hmd hkids look ind
  exact ⟨s, y, h1, h2, runR_mono (fun _ _ => KidR.equal) (run_same hf hal n a (fun _ _ h => by cases h) h3)⟩

end

section
attribute [local instance] asciiUni

/-- a corpus with two igts that have these attributes -/
def exTwo (ns : Option (Dict Str Str)) (a1 a2 : Dict Str Str) : Obj :=
  .mk { cls := .corpus, nsmap := ns } [] [.mk { cls := .igt, id := some (lit! "i1"), attrs := a1 } [] [], .mk { cls := .igt, id := some (lit! "i2"), attrs := a2 } [] []]

/-- the IDs of the igts after sorting -/
def sortedIds (sk : Str) (x : Obj) : Option (Py (List (Option Str))) :=
  (run stdCfg 9 { igtKey := [sk] } x).map fun r => r.map fun y => y.kids.map fun k => k.data.id

/-- **C145** is false of keys with prefixes: which namespaces are declared does not count for `==`, but without the prefix the key is
not found and the order stays. -/
theorem C145_refuted_prefix : ∃ x y : Obj, Equal x y ∧ sortedIds (lit! "@p:k") x = some (.ok [some (lit! "i2"), some (lit! "i1")]) ∧
    sortedIds (lit! "@p:k") y = some (.ok [some (lit! "i1"), some (lit! "i2")]) :=
  ⟨exTwo (some [(lit! "p", lit! "u")]) [(lit! "{u}k", lit! "b")] [(lit! "{u}k", lit! "a")], exTwo none [(lit! "{u}k", lit! "b")] [(lit! "{u}k", lit! "a")],
    ⟨wf_of_B (n := 9) (by decide +kernel), wf_of_B (n := 9) (by decide +kernel), rfl, by decide +kernel⟩, by decide +kernel, by decide +kernel⟩

/-- **C145** is false of the key `@*`, which is the attribute that was given first. -/
theorem C145_refuted_order : ∃ x y : Obj, Equal x y ∧ sortedIds (lit! "@*") x = some (.ok [some (lit! "i2"), some (lit! "i1")]) ∧
    sortedIds (lit! "@*") y = some (.ok [some (lit! "i1"), some (lit! "i2")]) :=
  ⟨exTwo none [(lit! "a", lit! "z"), (lit! "b", lit! "1")] [(lit! "a", lit! "m")], exTwo none [(lit! "b", lit! "1"), (lit! "a", lit! "z")] [(lit! "a", lit! "m")],
    ⟨wf_of_B (n := 9) (by decide +kernel), wf_of_B (n := 9) (by decide +kernel), rfl, by decide +kernel⟩, by decide +kernel, by decide +kernel⟩

/-- equal corpora that are not the same, whose igts change places -/
example : ∃ x y : Obj, x.kids.map (fun k => k.data.attrs) ≠ y.kids.map (fun k => k.data.attrs) ∧ Equal x y ∧
    sortedIds (lit! "@a") x = some (.ok [some (lit! "i2"), some (lit! "i1")]) ∧ ':' ∉ (lit! "@a") ∧ '*' ∉ (lit! "@a") :=
  ⟨exTwo none [(lit! "a", lit! "z"), (lit! "b", lit! "1")] [(lit! "a", lit! "m")], exTwo none [(lit! "b", lit! "1"), (lit! "a", lit! "z")] [(lit! "a", lit! "m")],
    by decide, ⟨wf_of_B (n := 9) (by decide +kernel), wf_of_B (n := 9) (by decide +kernel), rfl, by decide +kernel⟩, by decide +kernel, by decide, by decide⟩

end
end Xigt.Srt
