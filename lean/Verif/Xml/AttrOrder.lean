import Verif.Xml.Again
/-
C115: the order in which attributes stand in a document does not matter.

Two documents that differ only in the order of the attributes (and namespace declarations) of their
elements are opened with the same outcome: the same exception, or corpora with the same data.  So what
is read does not depend on whether the serialiser sorts attributes (python 3.6 and 3.7) or not (3.8 and
later).
-/

set_option linter.unusedSectionVars false
set_option linter.unusedSimpArgs false

namespace Xigt.Ord

/-- two computations with the same outcome: the same exception, or results that are related -/
def RelPy {α β : Type} (R : α → β → Prop) : Py α → Py β → Prop
  | .ok a, .ok b => R a b
  | .error e, .error e' => e = e'
  | _, _ => False

/-- namespace maps with the same entries -/
def SameMap (m m' : Dict Str Str) : Prop := ∀ k, Dict.get? m k = Dict.get? m' k

def SameMap? : Option (Dict Str Str) → Option (Dict Str Str) → Prop
  | none, none => True
  | some m, some m' => SameMap m m'
  | _, _ => False

/-- documents that differ only in the order of attributes, no element of which has an attribute twice -/
inductive Reordered : Elem → Elem → Prop
  | mk {tag as as' text tail ks ks'} : as.Perm as' → (as.map Prod.fst).Nodup → All2 Reordered ks ks' →
      Reordered (.mk tag as text tail ks) (.mk tag as' text tail ks')

/-- objects with the same data and the same namespace maps -/
inductive Alike : Obj → Obj → Prop
  | mk {a b : Data} {md md' ks ks' : List Obj} :
      a.cls = b.cls → a.id = b.id → a.type = b.type → a.ns = b.ns → a.text = b.text → a.name = b.name →
      a.attrs.Perm b.attrs → SameMap? a.nsmap b.nsmap → All2 Alike md md' → All2 Alike ks ks' →
      Alike (.mk a md ks) (.mk b md' ks')

/-- the same for elements that were read -/
inductive LikeP : PElem → PElem → Prop
  | mk {tag as as' ns ns' text ks ks'} : as.Perm as' → (as.map Prod.fst).Nodup → SameMap? ns ns' → All2 LikeP ks ks' →
      LikeP (.mk tag as ns text ks) (.mk tag as' ns' text ks')

inductive LikeN : NElem → NElem → Prop
  | mk {s tag as as' ns ns' text ks ks'} : as.Perm as' → (as.map Prod.fst).Nodup → SameMap ns ns' → All2 LikeN ks ks' →
      LikeN (.mk s tag as ns text ks) (.mk s tag as' ns' text ks')

inductive LikeEv : XEv → XEv → Prop
  | start {a b} : LikeN a b → LikeEv (.start a) (.start b)
  | stop {a b} : LikeN a b → LikeEv (.stop a) (.stop b)

variable [Uni] [XmlLex]

/-! ### Outcomes -/

theorem RelPy.bind {α β γ δ : Type} {R : α → β → Prop} {S : γ → δ → Prop} {a : Py α} {b : Py β} {f : α → Py γ} {g : β → Py δ}
    (h : RelPy R a b) (hf : ∀ x y, R x y → RelPy S (f x) (g y)) : RelPy S (a >>= f) (b >>= g) := by
  cases a with
  | error e =>
    cases b with
    | error e' => cases (show e = e' from h); exact rfl
    | ok y => exact h.elim
  | ok x =>
    cases b with
    | error e' => exact h.elim
    | ok y => exact hf x y h

theorem RelPy.refl {α : Type} {R : α → α → Prop} (h : ∀ x, R x x) (a : Py α) : RelPy R a a := by
  cases a with
  | error e => exact rfl
  | ok x => exact h x

theorem RelPy.eq {α : Type} {a b : Py α} (h : a = b) : RelPy Eq a b := by subst h; exact RelPy.refl (fun _ => rfl) a

theorem rel_mapPy {α β γ δ : Type} {R : α → β → Prop} {S : γ → δ → Prop} {f : α → Py γ} {g : β → Py δ} (hf : ∀ x y, R x y → RelPy S (f x) (g y)) :
    ∀ {xs : List α} {ys : List β}, All2 R xs ys → RelPy (All2 S) (mapPy f xs) (mapPy g ys) := by
  intro xs ys h
  induction h with
  | nil => exact All2.nil
  | cons h _ ih =>
    rw [mapPy, mapPy]
    refine RelPy.bind (hf _ _ h) fun x y hxy => ?_
    refine RelPy.bind ih fun xs ys hxs => ?_
    exact All2.cons hxy hxs

/-- if all exceptions are the same, order does not matter -/
theorem perm_mapPy {α β : Type} {f : α → Py β} {e0 : PyErr} (he : ∀ x e, f x = .error e → e = e0) : ∀ {xs ys : List α}, xs.Perm ys →
    RelPy List.Perm (mapPy f xs) (mapPy f ys) := by
  have err : ∀ (xs : List α) e, mapPy f xs = .error e → e = e0 := by
    intro xs
    induction xs with
    | nil => intro e h; cases h
    | cons x xs ih =>
      intro e h
      simp only [mapPy, bind, Except.bind, pure, Except.pure] at h
      split at h
      · cases h; rename_i e hx; exact he x _ hx
      · split at h
        · cases h; rename_i e hx; exact ih _ hx
        · cases h
  intro xs ys h
  induction h with
  | nil => exact List.Perm.refl _
  | cons x _ ih =>
    rw [mapPy, mapPy]
    refine RelPy.bind (RelPy.eq rfl) fun y y' h => ?_
    subst h
    exact RelPy.bind ih fun xs ys hxs => List.Perm.cons _ hxs
  | swap x y l =>
    simp only [mapPy, bind, Except.bind, pure, Except.pure]
    cases hx : f x with
    | error e =>
      have h1 := he x e hx
      cases hy : f y with
      | error e' => have h2 := he y e' hy; simp only [RelPy]; exact h2.trans h1.symm
      | ok y' => simp only [RelPy]
    | ok x' =>
      cases hy : f y with
      | error e' => simp only [RelPy]
      | ok y' =>
        cases hl : mapPy f l with
        | error e => simp only [RelPy]
        | ok l' => exact List.Perm.swap _ _ _
  | trans _ _ ih1 ih2 =>
    rename_i a b c _ _
    cases h1 : mapPy f a <;> cases h2 : mapPy f b <;> cases h3 : mapPy f c <;> rw [h1, h2] at ih1 <;> rw [h2, h3] at ih2 <;>
      simp only [RelPy] at ih1 ih2 ⊢
    · exact ih1.trans ih2
    · exact ih1.trans ih2

/-! ### Maps -/

theorem sameMap_set {m m' : Dict Str Str} (h : SameMap m m') (k v : Str) : SameMap (Dict.set m k v) (Dict.set m' k v) := by
  intro j; rw [Dict.get?_set, Dict.get?_set, h j]

theorem get?_update (m : Dict Str Str) : ∀ (l : Dict Str Str), l.WF → ∀ k, Dict.get? (Dict.update m l) k = (Dict.get? l k).or (Dict.get? m k) := by
  intro l
  induction l generalizing m with
  | nil => intro _ k; simp [Dict.update, Dict.get?]
  | cons p l ih =>
    obtain ⟨a, b⟩ := p
    intro hw k
    have hw' : Dict.WF l := by simp only [Dict.WF, Dict.keys, List.map_cons, List.nodup_cons] at hw ⊢; exact hw.2
    have ha : a ∉ Dict.keys l := by simp only [Dict.WF, Dict.keys, List.map_cons, List.nodup_cons] at hw ⊢; exact hw.1
    have e : Dict.update m ((a, b) :: l) = Dict.update (Dict.set m a b) l := rfl
    rw [e, ih _ hw', Dict.get?_set]
    by_cases h : a = k
    · subst h
      rw [(Dict.get?_eq_none_iff l a).2 ha]
      simp [Dict.get?]
    · simp [Dict.get?, h]

theorem get?_perm {l l' : Dict Str Str} (hw : l.WF) (h : l.Perm l') : SameMap l l' := by
  intro k
  have hw' : Dict.WF l' := (h.map Prod.fst).nodup_iff.1 hw
  cases hk : Dict.get? l k with
  | some v => exact (Dict.get?_of_mem hw' (h.mem_iff.1 (Dict.get?_mem hk))).symm
  | none =>
    symm
    rw [Dict.get?_eq_none_iff] at hk ⊢
    intro hm
    exact hk ((h.map Prod.fst).mem_iff.2 hm)

/-! ### Reading names -/

theorem declOf_inj {j k q : Str} (h : declOf j = some q) (h' : declOf k = some q) : j = k := by
  rcases declOf_chars h with h1 | ⟨h1, n1⟩ <;> rcases declOf_chars h' with h2 | ⟨h2, n2⟩
  · rw [h1, h2]
  · subst h1
    have : q = [] := (Option.some.inj ((show declOf (lit! "xmlns") = some [] from by decide).symm.trans h)).symm
    exact absurd this n2
  · subst h2
    have : q = [] := (Option.some.inj ((show declOf (lit! "xmlns") = some [] from by decide).symm.trans h')).symm
    exact absurd this n1
  · rw [h1, h2]

theorem declsOf_wf : ∀ {as : Dict Str Str}, (as.map Prod.fst).Nodup → (declsOf as).WF := by
  intro as
  induction as with
  | nil => intro _; exact List.nodup_nil
  | cons p as ih =>
    intro h
    simp only [List.map_cons, List.nodup_cons] at h
    cases hd : declOf p.1 with
    | none =>
      have e : declsOf (p :: as) = declsOf as := by simp [declsOf, hd]
      rw [e]; exact ih h.2
    | some q =>
      have e : declsOf (p :: as) = (q, p.2) :: declsOf as := by simp [declsOf, hd]
      rw [e]
      simp only [Dict.WF, Dict.keys, List.map_cons, List.nodup_cons]
      refine ⟨?_, ih h.2⟩
      intro hm
      obtain ⟨r, hr, hrq⟩ := List.mem_map.1 hm
      obtain ⟨s, hs, hsr⟩ := List.mem_filterMap.1 hr
      cases hds : declOf s.1 with
      | none => rw [hds] at hsr; cases hsr
      | some q' =>
        rw [hds] at hsr
        cases hsr
        cases hrq
        have := declOf_inj hd hds
        exact h.1 (this ▸ List.mem_map.2 ⟨s, hs, rfl⟩)

theorem resolve_same {m m' : Dict Str Str} (h : SameMap m m') (d : Option Str) (k : Str) : resolveName m d k = resolveName m' d k := by
  unfold resolveName
  split
  · rfl
  · rw [h]

theorem resolve_err {m : Dict Str Str} {d : Option Str} {k : Str} {e : PyErr} (h : resolveName m d k = .error e) : e = .parseError := by
  unfold resolveName at h
  repeat' split at h
  all_goals first
    | cases h; rfl
    | cases h

theorem parseAttr_same {m m' : Dict Str Str} (h : SameMap m m') : parseAttr m = parseAttr m' := by
  funext p; rw [parseAttr, parseAttr, resolve_same h]

theorem parseAttr_err {m : Dict Str Str} (p : Str × Str) (e : PyErr) (h : parseAttr m p = .error e) : e = .parseError := by
  simp only [parseAttr, bind, Except.bind] at h
  split at h
  · cases h; rename_i h; exact resolve_err h
  · split at h
    · cases h
    · cases h; rfl

/-- the parser does not look at the order of attributes -/
theorem parse_like : ∀ (e e' : Elem) (m m' : Dict Str Str), Reordered e e' → SameMap m m' → RelPy LikeP (parseElem m e) (parseElem m' e') := by
  refine Elem.ind fun tag attrs text tail kids ih e' m m' h hm => ?_
  cases h with
  | @mk _ _ as' _ _ _ ks' hp hn hk =>
    have hdp : (declsOf attrs).Perm (declsOf as') := hp.filterMap _
    have hw := declsOf_wf hn
    have hn' : (as'.map Prod.fst).Nodup := (hp.map Prod.fst).nodup_iff.1 hn
    have hs : SameMap (Dict.update m (declsOf attrs)) (Dict.update m' (declsOf as')) := by
      intro k
      rw [get?_update m _ hw, get?_update m' _ (declsOf_wf hn'), get?_perm hw hdp k, hm k]
    have hall : ((declsOf attrs).all fun p => declOK p.1 p.2) = ((declsOf as').all fun p => declOK p.1 p.2) := by
      rw [Bool.eq_iff_iff, List.all_eq_true, List.all_eq_true]
      exact ⟨fun h x hx => h x (hdp.mem_iff.2 hx), fun h x hx => h x (hdp.mem_iff.1 hx)⟩
    rw [parseElem, parseElem, hall]
    dsimp only
    rw [resolve_same hs, hs [], parseAttr_same hs]
    split
    · refine RelPy.bind (RelPy.eq rfl) fun t t' ht => ?_
      subst ht
      refine RelPy.bind (perm_mapPy (e0 := .parseError) parseAttr_err (hp.filter _)) fun as as' has => ?_
      have hnn : (as.map Prod.fst).Nodup ↔ (as'.map Prod.fst).Nodup := (has.map Prod.fst).nodup_iff
      by_cases hnd : (as.map Prod.fst).Nodup
      · rw [if_pos hnd, if_pos (hnn.1 hnd)]
        refine RelPy.bind (RelPy.eq rfl) fun x x' hx => ?_
        subst hx
        refine RelPy.bind (RelPy.eq rfl) fun y y' hy => ?_
        refine RelPy.bind (R := All2 LikeP) ?_ fun ks ks' hks => ?_
        · rw [parseElems_eq, parseElems_eq]
          have : All2 (fun a b => Reordered a b ∧ a ∈ kids) kids ks' := by
            clear ih
            have key : ∀ l l', All2 Reordered l l' → (∀ a ∈ l, a ∈ kids) → All2 (fun a b => Reordered a b ∧ a ∈ kids) l l' := by
              intro l l' h
              induction h with
              | nil => intro _; exact .nil
              | cons h _ ih => intro hm; exact .cons ⟨h, hm _ (by simp)⟩ (ih fun a ha => hm a (by simp [ha]))
            exact key _ _ hk fun a ha => ha
          exact rel_mapPy (fun a b h => ih a h.2 b _ _ h.1 hs) this
        · exact LikeP.mk has hnd hs hks
      · rw [if_neg hnd, if_neg (fun h => hnd (hnn.2 h))]
        exact rfl
    · exact rfl

/-! ### Events -/

theorem LikeP.start_eq {p q : PElem} (h : LikeP p q) : p.tag = q.tag ∧ p.text = q.text := by cases h; exact ⟨rfl, rfl⟩
theorem LikeN.start_eq {p q : NElem} (h : LikeN p q) : p.start = q.start ∧ p.tag = q.tag := by cases h; exact ⟨rfl, rfl⟩

theorem all2_mem {α β : Type} {R : α → β → Prop} : ∀ {xs : List α} {ys : List β}, All2 R xs ys → All2 (fun a b => R a b ∧ a ∈ xs) xs ys := by
  intro xs ys h
  have key : ∀ l l', All2 R l l' → (∀ a ∈ l, a ∈ xs) → All2 (fun a b => R a b ∧ a ∈ xs) l l' := by
    intro l l' h
    induction h with
    | nil => intro _; exact .nil
    | cons h _ ih => intro hm; exact .cons ⟨h, hm _ (by simp)⟩ (ih fun a ha => hm a (by simp [ha]))
  exact key _ _ h fun a ha => ha

theorem all2_imp {α β : Type} {R S : α → β → Prop} (h : ∀ a b, R a b → S a b) : ∀ {xs : List α} {ys : List β}, All2 R xs ys → All2 S xs ys := by
  intro xs ys h'
  induction h' with
  | nil => exact .nil
  | cons h1 _ ih => exact .cons (h _ _ h1) ih

theorem all2_app {α β : Type} {R : α → β → Prop} {a c : List α} {b d : List β} (h : All2 R a b) (h' : All2 R c d) : All2 R (a ++ c) (b ++ d) := by
  induction h with
  | nil => exact h'
  | cons h1 _ ih => exact .cons h1 ih

theorem all2_filter {α β : Type} {R : α → β → Prop} {p : α → Bool} {q : β → Bool} (hpq : ∀ a b, R a b → p a = q b) :
    ∀ {xs : List α} {ys : List β}, All2 R xs ys → All2 R (xs.filter p) (ys.filter q) := by
  intro xs ys h
  induction h with
  | nil => exact .nil
  | cons h1 _ ih =>
    rw [List.filter_cons, List.filter_cons, hpq _ _ h1]
    split
    · exact .cons h1 ih
    · exact ih

theorem all2_map_eq {α β γ : Type} {R : α → β → Prop} {f : α → γ} {g : β → γ} (hfg : ∀ a b, R a b → f a = g b) :
    ∀ {xs : List α} {ys : List β}, All2 R xs ys → xs.map f = ys.map g := by
  intro xs ys h
  induction h with
  | nil => rfl
  | cons h1 _ ih => rw [List.map_cons, List.map_cons, hfg _ _ h1, ih]

theorem all2_flatMap_eq {α β γ : Type} {R : α → β → Prop} {f : α → List γ} {g : β → List γ} (hfg : ∀ a b, R a b → f a = g b) {xs : List α} {ys : List β}
    (h : All2 R xs ys) : xs.flatMap f = ys.flatMap g := by
  rw [List.flatMap_def, List.flatMap_def, all2_map_eq hfg h]

theorem eventsL_like {l l' : List PElem} (h : All2 (fun a b : PElem => a.events = b.events) l l') : PElem.eventsL l = PElem.eventsL l' := by
  induction h with
  | nil => rfl
  | cons h1 _ ih => rw [PElem.eventsL, PElem.eventsL, h1, ih]

theorem events_like : ∀ (p q : PElem), LikeP p q → p.events = q.events := by
  refine PElem.ind fun tag as ns text ks ih q h => ?_
  cases h with
  | mk _ _ _ hk =>
    rw [PElem.events, PElem.events, eventsL_like (all2_imp (fun a b h => ih a h.2 b h.1) (all2_mem hk))]

theorem sameMap_getD {m m' : Option (Dict Str Str)} (h : SameMap? m m') : SameMap (m.getD []) (m'.getD []) := by
  cases m <;> cases m' <;> first | exact h.elim | exact h | exact fun _ => rfl

theorem number_like : ∀ (p q : PElem), LikeP p q → ∀ s, LikeN (number s p) (number s q) := by
  refine PElem.ind fun tag as ns text ks ih q h s => ?_
  cases h with
  | mk h1 h2 h3 hk =>
    rw [number, number]
    refine .mk h1 h2 (sameMap_getD h3) ?_
    have key : ∀ l l' : List PElem, All2 (fun a b => LikeP a b ∧ a ∈ ks) l l' → ∀ s, All2 LikeN (numberL s l) (numberL s l') := by
      intro l l' h
      induction h with
      | nil => intro s; exact .nil
      | cons h _ ih' =>
        intro s
        rw [numberL, numberL, events_like _ _ h.1]
        exact .cons (ih _ h.2 _ h.1 s) (ih' _)
    exact key _ _ (all2_mem hk) _

theorem NElem.ind {P : NElem → Prop} (h : ∀ s tag attrs ns text kids, (∀ x ∈ kids, P x) → P (.mk s tag attrs ns text kids)) : ∀ e, P e := by
  intro e
  exact NElem.rec (motive_1 := P) (motive_2 := fun l => ∀ y ∈ l, P y) (fun s a b c d k hk => h s a b c d k hk)
    (by intro y hy; cases hy) (fun a l ha hl y hy => by
      rcases List.mem_cons.1 hy with rfl | hy
      · exact ha
      · exact hl y hy) e

theorem evs_like : ∀ (p q : NElem), LikeN p q → All2 LikeEv (evs p) (evs q) := by
  refine NElem.ind fun s tag as ns text ks ih q h => ?_
  have h0 := h
  cases h with
  | mk h1 h2 h3 hk =>
    rw [evs, evs]
    refine .cons (.start h0) (all2_app ?_ (.cons (.stop h0) .nil))
    have key : ∀ l l' : List NElem, All2 (fun a b => LikeN a b ∧ a ∈ ks) l l' → All2 LikeEv (evsL l) (evsL l') := by
      intro l l' h
      induction h with
      | nil => exact .nil
      | cons h _ ih' =>
        rw [evsL, evsL]
        exact all2_app (ih _ h.2 _ h.1) ih'
    exact key _ _ (all2_mem hk)

theorem view_like (st : XSt) : ∀ (p q : NElem), LikeN p q → LikeP (view st p) (view st q) := by
  refine NElem.ind fun s tag as ns text ks ih q h => ?_
  cases h with
  | mk h1 h2 h3 hk =>
    rw [view, view]
    refine .mk ?_ ?_ ?_ ?_
    · split
      · exact h1
      · exact List.Perm.refl _
    · split
      · exact h2
      · exact List.nodup_nil
    · split
      · exact h3
      · exact trivial
    · have key : ∀ (c : Nat) (l l' : List NElem), All2 (fun a b => LikeN a b ∧ a ∈ ks) l l' → All2 LikeP (viewL st c l) (viewL st c l') := by
        intro c l l' h
        induction h with
        | nil => exact .nil
        | cons h _ ih' =>
          rw [viewL, viewL, h.1.start_eq.1]
          refine all2_app ?_ ih'
          split
          · exact .cons (ih _ h.2 _ h.1) .nil
          · exact .nil
      exact key _ _ _ (all2_mem hk)

theorem vkids_like (st : XSt) {p q : NElem} (h : LikeN p q) : All2 LikeN (vkids st p) (vkids st q) := by
  cases h with
  | mk h1 h2 h3 hk =>
    exact all2_filter (fun a b h => by rw [h.start_eq.1]) hk

theorem tagged_like (t : Str) {l l' : List NElem} (h : All2 LikeN l l') : All2 LikeN (tagged t l) (tagged t l') :=
  all2_filter (fun a b h => by rw [h.start_eq.2]) h

theorem visMc_like (st : XSt) : ∀ (p q : NElem), LikeN p q → visMc st p = visMc st q := by
  refine NElem.ind fun s tag as ns text ks ih q h => ?_
  cases h with
  | mk h1 h2 h3 hk =>
    rw [visMc, visMc]
    have key : ∀ (c : Nat) (l l' : List NElem), All2 (fun a b => LikeN a b ∧ a ∈ ks) l l' → visMcL st c l = visMcL st c l' := by
      intro c l l' h
      induction h with
      | nil => rfl
      | cons h _ ih' => rw [visMcL, visMcL, h.1.start_eq.1, ih', ih _ h.2 _ h.1]
    rw [key _ _ _ (all2_mem hk)]

theorem visMd_like (st : XSt) (p q : NElem) (h : LikeN p q) : visMd st p = visMd st q := by
  rw [visMd, visMd, h.start_eq.1, all2_flatMap_eq (visMc_like st) (tagged_like _ (vkids_like st h))]

theorem visTier_like (st : XSt) (p q : NElem) (h : LikeN p q) : visTier st p = visTier st q := by
  rw [visTier, visTier, h.start_eq.1, all2_flatMap_eq (visMd_like st) (tagged_like _ (vkids_like st h)),
    all2_map_eq (fun a b h => h.start_eq.1) (tagged_like _ (vkids_like st h))]

theorem visIgt_like (st : XSt) (p q : NElem) (h : LikeN p q) : visIgt st p = visIgt st q := by
  rw [visIgt, visIgt, h.start_eq.1, all2_flatMap_eq (visMd_like st) (tagged_like _ (vkids_like st h)),
    all2_flatMap_eq (visTier_like st) (tagged_like _ (vkids_like st h))]

theorem visCorpus_like (st : XSt) (p q : NElem) (h : LikeN p q) : visCorpus st p = visCorpus st q := by
  rw [visCorpus, visCorpus, all2_flatMap_eq (visMd_like st) (tagged_like _ (vkids_like st h))]

/-! ### Decoding -/

/-- the same data, apart from the order of attributes -/
def LikeD (a b : Data) : Prop :=
  a.cls = b.cls ∧ a.id = b.id ∧ a.type = b.type ∧ a.ns = b.ns ∧ a.text = b.text ∧ a.name = b.name ∧ a.attrs.Perm b.attrs ∧
    SameMap? a.nsmap b.nsmap

theorem xmlData_like (c : Cls) (ig : List Str) (ex : Option Str) {p q : PElem} (h : LikeP p q) : RelPy LikeD (xmlData c ig ex p) (xmlData c ig ex q) := by
  cases h with
  | @mk tag as as' ns ns' text ks ks' h1 h2 h3 hk =>
    rw [xmlData, xmlData]
    refine RelPy.bind (RelPy.eq rfl) fun x y hxy => ?_
    subst hxy
    simp only [PElem.nsmap, PElem.attrs, getAttrs]
    split
    · cases ns <;> cases ns' <;> first | exact h3.elim | skip
      · exact rfl
      · exact ⟨rfl, get?_perm h2 h1 _, get?_perm h2 h1 _, rfl, rfl, rfl, h1.filter _, h3⟩
    · exact rfl

theorem Alike.id_eq {x y : Obj} (h : Alike x y) : x.data.id = y.data.id := by cases h with | mk _ h => exact h

theorem dupId_like {l l' : List Obj} (h : All2 Alike l l') : dupId l = dupId l' := by
  induction h with
  | nil => rfl
  | @cons x y xs ys h1 h2 ih =>
    rw [dupId, dupId, ih, h1.id_eq]
    congr 2
    clear ih
    induction h2 with
    | nil => rfl
    | cons h3 _ ih => rw [List.any_cons, List.any_cons, ih, h3.id_eq]

theorem construct_like {a b : Data} {md md' ks ks' : List Obj} (h : LikeD a b) (hm : All2 Alike md md') (hk : All2 Alike ks ks') :
    RelPy Alike (construct a md ks) (construct b md' ks') := by
  obtain ⟨h1, h2, h3, h4, h5, h6, h7, h8⟩ := h
  rw [construct, construct, h2, h6, dupId_like hm, dupId_like hk]
  split
  · exact rfl
  · split
    · exact rfl
    · split
      · exact rfl
      · exact Alike.mk h1 h2 h3 h4 h5 h6 h7 h8 hm hk

theorem findall_like {p q : PElem} (h : LikeP p q) (t : Str) : All2 LikeP (findall p t) (findall q t) := by
  cases h with
  | mk h1 h2 h3 hk => exact all2_filter (fun a b h => by rw [h.start_eq.1]) hk

theorem readMc_like : ∀ (p q : PElem), LikeP p q → RelPy Alike (readMc p) (readMc q) := by
  refine PElem.ind fun tag as ns text ks ih q h => ?_
  have h0 := h
  cases h with
  | mk h1 h2 h3 hk =>
    rw [readMc, readMc, readMcs_eq, readMcs_eq]
    refine RelPy.bind (xmlData_like _ _ _ h0) fun d d' hd => ?_
    refine RelPy.bind (rel_mapPy (fun a b h => ih a h.2 b h.1) (all2_mem hk)) fun ks ks' hks => ?_
    obtain ⟨d1, d2, d3, d4, d5, d6, d7, d8⟩ := hd
    exact construct_like ⟨d1, rfl, rfl, d4, rfl, d6, d7, d8⟩ .nil hks

theorem LikeP.kids {p q : PElem} (h : LikeP p q) : All2 LikeP p.kids q.kids := by cases h with | mk _ _ _ hk => exact hk

theorem readMeta_like (p q : PElem) (h : LikeP p q) : RelPy Alike (readMeta p) (readMeta q) := by
  rw [readMeta, readMeta, readMcs_eq, readMcs_eq, h.start_eq.2]
  refine RelPy.bind (xmlData_like _ _ _ h) fun d d' hd => ?_
  refine RelPy.bind (rel_mapPy readMc_like h.kids) fun ks ks' hks => ?_
  obtain ⟨d1, d2, d3, d4, d5, d6, d7, d8⟩ := hd
  exact construct_like ⟨d1, d2, d3, d4, rfl, d6, d7, d8⟩ .nil hks

theorem readMd_like (p q : PElem) (h : LikeP p q) : RelPy Alike (readMd p) (readMd q) := by
  rw [readMd, readMd]
  refine RelPy.bind (xmlData_like _ _ _ h) fun d d' hd => ?_
  refine RelPy.bind (rel_mapPy readMeta_like (findall_like h _)) fun ks ks' hks => ?_
  exact construct_like hd .nil hks

theorem readItem_like (p q : PElem) (h : LikeP p q) : RelPy Alike (readItem p) (readItem q) := by
  rw [readItem, readItem, h.start_eq.2]
  refine RelPy.bind (xmlData_like _ _ _ h) fun d d' hd => ?_
  obtain ⟨d1, d2, d3, d4, d5, d6, d7, d8⟩ := hd
  exact construct_like ⟨d1, d2, d3, d4, rfl, d6, d7, d8⟩ .nil .nil

theorem readTier_like (p q : PElem) (h : LikeP p q) : RelPy Alike (readTier p) (readTier q) := by
  rw [readTier, readTier]
  refine RelPy.bind (xmlData_like _ _ _ h) fun d d' hd => ?_
  refine RelPy.bind (rel_mapPy readMd_like (findall_like h _)) fun ms ms' hms => ?_
  refine RelPy.bind (rel_mapPy readItem_like (findall_like h _)) fun ks ks' hks => ?_
  exact construct_like hd hms hks

theorem readIgt_like (p q : PElem) (h : LikeP p q) : RelPy Alike (readIgt p) (readIgt q) := by
  rw [readIgt, readIgt]
  refine RelPy.bind (xmlData_like _ _ _ h) fun d d' hd => ?_
  refine RelPy.bind (rel_mapPy readMd_like (findall_like h _)) fun ms ms' hms => ?_
  refine RelPy.bind (rel_mapPy readTier_like (findall_like h _)) fun ks ks' hks => ?_
  exact construct_like hd hms hks

/-! ### Streams -/

theorem genIgts_like (look : Nat → Nat) (root : Nat) : ∀ {es es' : List XEv}, All2 LikeEv es es' → ∀ (n : Nat) (clr : Nat → Nat),
    All2 (RelPy Alike) (genIgts look root n clr es) (genIgts look root n clr es') := by
  intro es es' h
  induction h with
  | nil => intro n clr; exact .cons rfl .nil
  | cons h _ ih =>
    intro n clr
    cases h with
    | start h => rw [genIgts, genIgts]; exact ih _ _
    | @stop a b h =>
      rw [genIgts, genIgts, h.start_eq.2]
      split
      · exact .nil
      · split
        · have hr := readIgt_like _ _ (view_like (advance look n clr) a b h)
          have hv := visIgt_like (advance look n clr) a b h
          cases h1 : readIgt (view (advance look n clr) a) <;> cases h2 : readIgt (view (advance look n clr) b) <;> rw [h1, h2] at hr
          · exact .cons hr .nil
          · exact hr.elim
          · exact hr.elim
          · rw [hv]; exact .cons hr (ih _ _)
        · exact ih _ _

/-- opened corpora that are alike, and yield IGTs that are -/
def LikeOpened (o o' : Opened) : Prop := Alike o.corpus o'.corpus ∧ All2 (RelPy Alike) o.igts o'.igts

theorem openLoop_like (look : Nat → Nat) {root root' : NElem} (hr : LikeN root root') : ∀ {es es' : List XEv}, All2 LikeEv es es' → ∀ (n : Nat),
    RelPy LikeOpened (openLoop look root n es) (openLoop look root' n es') := by
  intro es es' h
  induction h with
  | nil => intro n; exact rfl
  | cons h hes ih =>
    intro n
    have hv := view_like (advance look n fun _ => 0) root root' hr
    cases h with
    | @start a b h =>
      rw [openLoop, openLoop, h.start_eq.2]
      split
      · refine RelPy.bind (xmlData_like _ _ _ hv) fun d d' hd => ?_
        refine RelPy.bind (rel_mapPy readMd_like (findall_like hv _)) fun ms ms' hms => ?_
        obtain ⟨d1, d2, d3, d4, d5, d6, d7, d8⟩ := hd
        refine RelPy.bind (construct_like ⟨d1, d2, rfl, d4, d5, d6, d7, d8⟩ hms .nil) fun x y hxy => ?_
        refine ⟨hxy, ?_⟩
        rw [visCorpus_like _ _ _ hr, hr.start_eq.1]
        exact genIgts_like look _ hes _ _
      · exact ih _
    | @stop a b h =>
      rw [openLoop, openLoop, h.start_eq.2]
      split
      · refine RelPy.bind (xmlData_like _ _ _ hv) fun d d' hd => ?_
        refine RelPy.bind (rel_mapPy readMd_like (findall_like hv _)) fun ms ms' hms => ?_
        refine RelPy.bind (rel_mapPy readIgt_like (findall_like hv _)) fun ks ks' hks => ?_
        obtain ⟨d1, d2, d3, d4, d5, d6, d7, d8⟩ := hd
        refine RelPy.bind (construct_like ⟨d1, d2, rfl, d4, d5, d6, d7, d8⟩ hms .nil) fun x y hxy => ?_
        refine ⟨hxy, ?_⟩
        clear ih hes
        induction hks with
        | nil => exact .nil
        | cons h _ ih => exact .cons h ih
      · exact ih _

theorem openXml_like (look : Nat → Nat) {p q : PElem} (h : LikeP p q) : RelPy LikeOpened (openXml look p) (openXml look q) :=
  openLoop_like look (number_like p q h 0) (evs_like _ _ (number_like p q h 0)) 0

theorem drain_like {l l' : List (Py Obj)} (h : All2 (RelPy Alike) l l') : RelPy (All2 Alike) (drain l) (drain l') := by
  induction h with
  | nil => exact All2.nil
  | cons h _ ih =>
    rw [drain, drain]
    refine RelPy.bind h fun x y hxy => ?_
    refine RelPy.bind ih fun xs ys hxs => ?_
    exact All2.cons hxy hxs

theorem loadXml_like (look : Nat → Nat) {p q : PElem} (h : LikeP p q) : RelPy Alike (loadXml look p) (loadXml look q) := by
  rw [loadXml, loadXml]
  refine RelPy.bind (openXml_like look h) fun o o' ho => ?_
  refine RelPy.bind (drain_like ho.2) fun ks ks' hks => ?_
  obtain ⟨⟨d, md, k⟩, i⟩ := o
  obtain ⟨⟨d', md', k'⟩, i'⟩ := o'
  obtain ⟨h1, _⟩ := ho
  cases h1 with
  | mk d1 d2 d3 d4 d5 d6 d7 d8 hm _ => exact construct_like ⟨d1, d2, d3, d4, d5, d6, d7, d8⟩ hm hks

/-! ### The property -/

theorem all2_get {α β : Type} {R : α → β → Prop} : ∀ {xs : List α} {ys : List β}, All2 R xs ys →
    xs.length = ys.length ∧ ∀ (i : Nat) x y, xs[i]? = some x → ys[i]? = some y → R x y := by
  intro xs ys h
  induction h with
  | nil => exact ⟨rfl, by simp⟩
  | cons h1 _ ih =>
    refine ⟨by simp [ih.1], ?_⟩
    intro i x y hx hy
    cases i with
    | zero => simp at hx hy; subst hx hy; exact h1
    | succ i => simp at hx hy; exact ih.2 i x y hx hy

/-- alike objects hold the same data -/
theorem Alike.same : ∀ (x y : Obj), Alike x y → SameData x y := by
  refine Obj.ind fun d md ks ihm ihk y h => ?_
  cases h with
  | mk h1 h2 h3 h4 h5 h6 h7 h8 hm hk =>
    have g1 := all2_get hm
    have g2 := all2_get hk
    refine .mk h1 h2 h3 h4 h5 h6 h7 g1.1 g2.1 ?_ ?_
    · intro i a b ha hb; exact ihm a (List.mem_of_getElem? ha) b (g1.2 i a b ha hb)
    · intro i a b ha hb; exact ihk a (List.mem_of_getElem? ha) b (g2.2 i a b ha hb)

/-- C115 for the text: two documents whose elements differ only in the order of their attributes and
namespace declarations, however they are written and cut into chunks, are opened in any mode with the
same outcome: the same exception, or corpora that are alike and yield IGTs that are, or the same
exceptions. -/
theorem C115_open (s s' : Str) (e e' : Elem) (h : scanXml s = .ok e) (h' : scanXml s' = .ok e') (hr : Reordered e e') (look : Nat → Nat) :
    RelPy LikeOpened (readText s >>= openXml look) (readText s' >>= openXml look) := by
  have : RelPy LikeP (readText s) (readText s') := by
    rw [readText, readText, h, h']
    exact parse_like e e' [] [] hr fun _ => rfl
  exact RelPy.bind this fun p q hpq => openXml_like look hpq

/-- C115 in full mode. -/
theorem C115 (s s' : Str) (e e' : Elem) (h : scanXml s = .ok e) (h' : scanXml s' = .ok e') (hr : Reordered e e') (look : Nat → Nat) :
    RelPy Alike (loadsXml look s) (loadsXml look s') := by
  have : RelPy LikeP (readText s) (readText s') := by
    rw [readText, readText, h, h']
    exact parse_like e e' [] [] hr fun _ => rfl
  rw [loadsXml, loadsXml]
  exact RelPy.bind this fun p q hpq => loadXml_like look hpq

end Xigt.Ord
