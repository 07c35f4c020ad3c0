import Verif.Scripts.SortProps
import Verif.Igt.ValueLemmas
import Verif.Ref.Ops
/-
C134: sorting does not change what items say.
-/
set_option linter.unusedSectionVars false

namespace Xigt.Srt
open Re

section
variable [Uni]

/-! ### Specification -/

/-- a reference of a tier is by name: some tier has it as its ID, or it is not a numeral -/
def ByName (g : Obj) (v : Str) : Prop := (∃ u ∈ g.kids, u.data.id = some v) ∨ ∀ k, pyInt v ≠ .ok k

/-- no two tiers have the same ID, nor two items of one tier, and what tiers are the content or
segmentation of is named -/
structure Named (g : Obj) : Prop where
  tiers : (g.kids.filterMap fun t => t.data.id).Nodup
  items : ∀ t ∈ g.kids, (t.kids.filterMap fun i => i.data.id).Nodup
  refs : ∀ t ∈ g.kids, ∀ ra v, ra = CONTENT ∨ ra = SEGMENTATION → Dict.get? t.data.attrs ra = some v → ByName g v

/-- the same tiers in another order, each with the same items in another order -/
def Sorted (R : Obj → Obj → Prop) (g g' : Obj) : Prop :=
  g'.data = g.data ∧ ∃ l, l.Perm g.kids ∧ All2 (fun t t' => t'.data = t.data ∧ t'.kids.Perm t.kids ∧ R t t') l g'.kids

/-! ### Lookup -/

theorem find_perm {l l' : List Obj} (hp : l.Perm l') (s : Str) (hn : (l.filterMap fun x => x.data.id).Nodup) :
    l.find? (fun x => decide (x.data.id = some s)) = l'.find? (fun x => decide (x.data.id = some s)) := by
  induction hp with
  | nil => rfl
  | cons x _ ih =>
    rw [List.find?_cons, List.find?_cons]
    split
    · rfl
    · refine ih ?_
      rw [List.filterMap_cons] at hn
      split at hn
      · exact hn
      · exact (List.nodup_cons.1 hn).2
  | swap x y l =>
    simp only [List.find?_cons]
    by_cases hx : x.data.id = some s
    · by_cases hy : y.data.id = some s
      · simp [List.filterMap_cons, hx, hy] at hn
      · simp [hx, hy]
    · by_cases hy : y.data.id = some s <;> simp [hx, hy]
  | trans h1 _ ih1 ih2 => rw [ih1 hn, ih2 ((h1.filterMap _).nodup_iff.1 hn)]

/-- neither, or two that are related -/
inductive OptR {α β : Type} (R : α → β → Prop) : Option α → Option β → Prop
  | none : OptR R none none
  | some {a b} : R a b → OptR R (some a) (some b)

theorem find_all2 {R : Obj → Obj → Prop} (hR : ∀ a b, R a b → b.data = a.data) (s : Str) {l l' : List Obj} (h : All2 R l l') :
    OptR R (l.find? fun x => decide (x.data.id = some s)) (l'.find? fun x => decide (x.data.id = some s)) := by
  induction h with
  | nil => exact .none
  | cons h _ ih =>
    rw [List.find?_cons, List.find?_cons, hR _ _ h]
    split
    · exact .some h
    · exact ih

theorem contGet_named {l : List Obj} {s : Str} (h : (∃ u ∈ l, u.data.id = some s) ∨ ∀ k, pyInt s ≠ .ok k) :
    contGet l s = l.find? fun x => decide (x.data.id = some s) := by
  unfold contGet
  split
  · rename_i h1; rw [h1]
  · rename_i h1
    rw [h1]
    rcases h with ⟨u, hu, hs⟩ | h
    · have := List.find?_eq_none.1 h1 u hu
      simp [hs] at this
    · split
      · rename_i k hk; exact absurd hk (h k)
      · rfl

/-! ### What references name -/

theorem selection_id {st : MSt} (hc : st.caps = []) {x : Str × MSt} (h : x ∈ selectionRe.run st) : IdOK (x.2.group 2) := by
  obtain ⟨y, hy, z, hz, rfl⟩ := mem_seq h
  obtain ⟨y', hy', rfl⟩ := mem_grp hy
  obtain ⟨u, hu, v, hv, rfl⟩ := mem_seq hz
  obtain ⟨u', hu', rfl⟩ := mem_grp hu
  have hid := mem_idRe hu'
  rcases mem_opt.1 hv with hv | rfl
  · obtain ⟨w, hw, t, ht, rfl⟩ := mem_seq hv
    obtain ⟨c, cs, hcs, hc, rfl⟩ := mem_cls hw
    obtain ⟨p, hp, q, hq, rfl⟩ := mem_seq ht
    obtain ⟨p', hp', rfl⟩ := mem_grp hp
    obtain ⟨c', cs', hcs', hc', rfl⟩ := mem_cls hq
    have hpc := run_caps (star (cls (· != ']'))) rfl _ _ hp'
    simpa [MSt.group, hpc] using hid
  · simpa [MSt.group] using hid

theorem triples_id {s : Str} : ∀ t ∈ findTriples selectionRe s, IdOK t.2.1 := by
  intro t ht
  obtain ⟨x, hx, rfl⟩ := List.mem_map.1 ht
  rw [findAll_eq] at hx
  obtain ⟨_, b, _, _, h⟩ := mem_found _ _ _ x hx
  exact selection_id rfl h

theorem idOK_accepted {i : Str} (h : IdOK i) : idAccepted i = true := by
  obtain ⟨c, cs, rfl, hc, _⟩ := h
  exact (idAccepted_iff _).2 ⟨c, cs, rfl, hc⟩

theorem resolveSels_on {get get' : Str → Option (Py (Option Str))} : ∀ {ts : List (Str × Str × Str)}, (∀ t ∈ ts, get t.2.1 = get' t.2.1) →
    resolveSels get ts = resolveSels get' ts := by
  intro ts
  induction ts with
  | nil => intro _; rfl
  | cons t ts ih =>
    intro h
    obtain ⟨d, i, rng⟩ := t
    simp only [resolveSels]
    rw [show get i = get' i from h (d, i, rng) (List.mem_cons_self ..), ih fun t ht => h t (List.mem_cons_of_mem _ ht)]

theorem resolve_on {get get' : Str → Option (Py (Option Str))} {e : Str} (h : ∀ i, idAccepted i = true → get i = get' i) :
    resolve get e = resolve get' e :=
  resolveSels_on fun t ht => h _ (idOK_accepted (triples_id t ht))

/-! ### Values -/

theorem reord_one {t t' : Obj} (h : Reord 1 t t') : t'.data = t.data ∧ t'.kids.Perm t.kids := by
  obtain ⟨h1, -, l, h3, h4⟩ := h
  have : t'.kids = l := by
    clear h3
    generalize t'.kids = m at h4
    induction h4 with
    | nil => rfl
    | cons h _ ih => rw [ih, show _ = _ from h]
  exact ⟨h1, this ▸ h3⟩

theorem value_sorted {g g' : Obj} (hn : Named g) (h : Reord 2 g g') : ∀ (n : Nat) (t t' i : Obj), t ∈ g.kids → t'.data = t.data →
    value n (some g') (some t') i = value n (some g) (some t) i := by
  obtain ⟨-, -, l, hp, ha⟩ := h
  intro n
  induction n with
  | zero => intros; rfl
  | succ n ih =>
    intro t t' i ht hd
    simp only [value]
    cases i.data.text with
    | some s => rfl
    | none =>
      simp only
      have hr : ∀ ra, ra = CONTENT ∨ ra = SEGMENTATION →
          resolveRef (fun r j => value n (some g') (some r) j) (some g') (some t') i ra =
            resolveRef (fun r j => value n (some g) (some r) j) (some g) (some t) i ra := by
        intro ra hra
        unfold resolveRef
        cases Dict.getItem i.data.attrs ra with
        | error e => rfl
        | ok expr =>
          simp only [bind, Except.bind, hd]
          cases hv : Dict.getItem t.data.attrs ra with
          | error e => rfl
          | ok v =>
            simp only
            have hv' : Dict.get? t.data.attrs ra = some v := by
              unfold Dict.getItem at hv
              split at hv
              · rename_i w hw; cases hv; exact hw
              · cases hv
            have hb := hn.refs t ht ra v hra hv'
            have hb' : (∃ u ∈ g'.kids, u.data.id = some v) ∨ ∀ k, pyInt v ≠ .ok k := by
              rcases hb with ⟨u, hu, hs⟩ | hb
              · obtain ⟨u', hu', hr⟩ := All2.mem_left ha u (hp.mem_iff.2 hu)
                exact .inl ⟨u', hu', by rw [(reord_one hr).1]; exact hs⟩
              · exact .inr hb
            rw [contGet_named hb, contGet_named hb', ← find_perm hp v ((hp.filterMap _).nodup_iff.2 hn.tiers)]
            have hf := find_all2 (fun a b h => (reord_one h).1) v ha
            have hmem : ∀ r, l.find? (fun x => decide (x.data.id = some v)) = some r → r ∈ g.kids := fun r hr =>
              hp.mem_iff.1 (List.mem_of_find?_eq_some hr)
            generalize l.find? (fun x => decide (x.data.id = some v)) = o at hf hmem
            generalize g'.kids.find? (fun x => decide (x.data.id = some v)) = o' at hf
            cases hf with
            | none => rfl
            | @some r r' hr =>
              simp only
              obtain ⟨d1, d2⟩ := reord_one hr
              refine resolve_on fun j hj => ?_
              rw [contGet_id hj, contGet_id hj, find_perm d2 j ((d2.filterMap _).nodup_iff.2 (hn.items r (hmem r rfl)))]
              cases r.kids.find? (fun x => decide (x.data.id = some j)) with
              | none => rfl
              | some y => simp only [Option.map]; rw [ih r r' y (hmem r rfl) d1]
      simp only [valueBy]
      rw [hr CONTENT (.inl rfl), hr SEGMENTATION (.inr rfl)]

theorem all2_strengthen {α β : Type} {R S : α → β → Prop} {l : List α} {m : List β} (h : All2 R l m) (hs : ∀ a ∈ l, ∀ b, R a b → S a b) :
    All2 S l m := by
  induction h with
  | nil => exact .nil
  | cons h _ ih => exact .cons (hs _ (List.mem_cons_self ..) _ h) (ih fun a ha => hs a (List.mem_cons_of_mem _ ha))

/-- **C134** for `xigt sort`, whatever the keys: the result has the same IGTs with the same tiers with
the same items, each in another order, and in every IGT that meets `Named` all items have the value
(or raise the exception) that they had before. -/
theorem C134_partial (c : XP.PCfg) (n : Nat) (a : Args) (x y : Obj) (h : run c n a x = some (.ok y)) :
    ∃ l, l.Perm x.kids ∧ All2 (fun g g' => Sorted (fun t t' => Named g → ∀ i ∈ t.kids, ∀ m, value m (some g') (some t') i = value m (some g) (some t) i) g g')
      l y.kids := by
  obtain ⟨-, -, l, hp, ha⟩ := C68_reorders c n a x y h
  refine ⟨l, hp, all2_strengthen ha fun g _ g' hg => ?_⟩
  have hg' := hg
  obtain ⟨h1, -, m, h3, h4⟩ := hg
  exact ⟨h1, m, h3, all2_strengthen h4 fun t ht t' hr =>
    ⟨(reord_one hr).1, (reord_one hr).2, fun hn i _ k => value_sorted hn hg' k t t' i (h3.mem_iff.1 ht) (reord_one hr).1⟩⟩

/-- **C134** for `igt.sort_tiers()` -/
theorem C134_tiers_partial (n : Nat) (deps : List Str) (g : Obj) (hn : Named g) (ts : List Obj) (h : sortTiers n deps g.kids = some (.ok ts)) :
    ts.Perm g.kids ∧ ∀ t ∈ ts, ∀ i ∈ t.kids, ∀ m, value m (some (.mk g.data g.md ts)) (some t) i = value m (some g) (some t) i := by
  have hr : Reord 2 g (.mk g.data g.md ts) := depSort_reord (n := n) (deps := deps) 1 (by simp [depSort, h, Except.map])
  have hp : ts.Perm g.kids := by
    have hb := depSort_reord (n := n) (deps := deps) (igt := g) (y := .mk g.data g.md ts) 0 (by simp [depSort, h, Except.map])
    exact (reord_one hb).2
  exact ⟨hp, fun t ht i _ m => value_sorted hn hr m t t i (hp.mem_iff.1 ht) rfl⟩

end

section
attribute [local instance] asciiUni

/-- a tier whose content is the first tier, by its number or by its name -/
def numIgt (v : Str) : Obj := .mk { cls := .igt, id := some (lit! "i") } [] [
  .mk { cls := .tier, id := some (lit! "b") } [] [.mk { cls := .item, id := some (lit! "b1"), text := some (lit! "x") } [] []],
  .mk { cls := .tier, id := some (lit! "a") } [] [.mk { cls := .item, id := some (lit! "a1"), text := some (lit! "y") } [] []],
  .mk { cls := .tier, id := some (lit! "c"), attrs := [(CONTENT, v)] } [] [.mk { cls := .item, id := some (lit! "c1"), attrs := [(CONTENT, lit! "b1")] } [] []]]

/-- the values of the items of the tiers with the ID -/
def valuesOf (t : Str) (x : Obj) : List (Py (Option Str)) :=
  x.kids.flatMap fun g => (g.kids.filter fun u => decide (u.data.id = some t)).flatMap fun u => u.kids.map fun i => value 10 (some g) (some u) i

/-- C134 is false of tiers that are referred to by their place: `content="0"` is the first tier,
which is another one after sorting. -/
theorem C134_refuted : ∃ (c : XP.PCfg) (a : Args) (x y : Obj), run c 10 a x = some (.ok y) ∧ valuesOf (lit! "c") x = [.ok (some (lit! "x"))] ∧
    valuesOf (lit! "c") y = [.error .xigtStructureError] := by
  have h : (match run exCfg 10 { tierKey := [lit! "@id"] } (.mk { cls := .corpus } [] [numIgt (lit! "0")]) with
    | some (.ok y) => decide (valuesOf (lit! "c") y = [.error .xigtStructureError])
    | _ => false) = true := by decide +kernel
  split at h
  · rename_i y hy
    exact ⟨exCfg, _, _, y, hy, by decide +kernel, of_decide_eq_true h⟩
  · cases h

/-- `Named` is met if the tier is named, and the order is changed -/
example : Named (numIgt (lit! "b")) ∧ (match run exCfg 10 { tierKey := [lit! "@id"] } (.mk { cls := .corpus } [] [numIgt (lit! "b")]) with
    | some (.ok y) => decide (valuesOf (lit! "c") y = [.ok (some (lit! "x"))] ∧ (y.kids.flatMap fun g => g.kids.map fun t => t.data.id) =
        [some (lit! "a"), some (lit! "b"), some (lit! "c")])
    | _ => false) = true := by
  refine ⟨⟨by decide +kernel, by decide +kernel, ?_⟩, by decide +kernel⟩
  intro t ht ra v _ hv
  simp only [numIgt, Obj.kids, List.mem_cons, List.not_mem_nil, or_false] at ht
  rcases ht with rfl | rfl | rfl
  · cases hv
  · cases hv
  · simp only [Obj.data, Dict.get?] at hv
    split at hv
    · cases hv; exact .inl ⟨_, List.mem_cons_self .., rfl⟩
    · cases hv

end
end Xigt.Srt
