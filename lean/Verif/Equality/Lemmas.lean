import Verif.Equality.Model
import Verif.Equality.Spec
import Verif.DictLemmas

namespace Xigt
namespace Dict
variable {κ ν : Type} [DecidableEq κ] [DecidableEq ν]

theorem beq_iff {d e : Dict κ ν} (hd : d.WF) (he : e.WF) : beq d e = true ↔ d.Perm e := by
  have nd : ∀ {d : Dict κ ν}, d.WF → d.Nodup := by
    intro d h
    unfold WF keys at h
    exact (List.pairwise_map.1 h).imp (fun h e => h (by rw [e]))
  simp only [beq, Bool.and_eq_true, List.all_eq_true, decide_eq_true_eq]
  constructor
  · rintro ⟨h1, h2⟩
    refine (List.perm_ext_iff_of_nodup (nd hd) (nd he)).2 fun p => ⟨fun h => ?_, fun h => ?_⟩
    · exact get?_mem (h1 p h)
    · exact get?_mem (h2 p h)
  · intro h
    exact ⟨fun p hp => get?_of_mem he (h.mem_iff.1 hp), fun p hp => get?_of_mem hd (h.mem_iff.2 hp)⟩
end Dict

theorem attrEq_iff {a b : Data} (ha : a.attrs.WF) (hb : b.attrs.WF) :
    attrEq a b = true ↔ a.id = b.id ∧ a.type = b.type ∧ a.attrs.Perm b.attrs ∧ a.ns = b.ns := by
  simp [attrEq, Dict.beq_iff ha hb, and_assoc]

theorem zipEq_iff {xs ys : List Obj} : Obj.zipEq xs ys = true ↔
    ∀ (i : Nat) x y, xs[i]? = some x → ys[i]? = some y → Obj.eq x y = true := by
  induction xs generalizing ys with
  | nil => simp [Obj.zipEq]
  | cons x xs ih =>
    cases ys with
    | nil => simp [Obj.zipEq]
    | cons y ys =>
      simp only [Obj.zipEq, Bool.and_eq_true, ih]
      constructor
      · rintro ⟨h1, h2⟩ i a b ha hb
        cases i with
        | zero => simp at ha hb; subst ha hb; exact h1
        | succ i => exact h2 i a b (by simpa using ha) (by simpa using hb)
      · intro h
        exact ⟨h 0 x y rfl rfl, fun i a b ha hb => h (i + 1) a b (by simpa using ha) (by simpa using hb)⟩

theorem Obj.WF.attrs {x : Obj} (h : x.WF) : x.data.attrs.WF := by cases h; assumption

theorem eq_iff_same (x : Obj) : ∀ y, x.WF → y.WF → x.cls = y.cls →
    (Obj.eq x y = true ↔ SameData x y) := by
  induction x using Obj.ind with
  | h a md ks ihm ihk =>
    intro y hx hy hc
    obtain ⟨b, md', ks'⟩ := y
    cases hx with | mk ax tx nx mx cmx ckx wmx wkx =>
    cases hy with | mk ay ty ny my cmy cky wmy wky =>
    simp only [Obj.cls_mk] at hc
    have hm : (∀ (i : Nat) x y, md[i]? = some x → md'[i]? = some y → Obj.eq x y = true) ↔
        (∀ (i : Nat) x y, md[i]? = some x → md'[i]? = some y → SameData x y) := by
      constructor <;> intro h i x y h1 h2
      all_goals
        have m1 := List.mem_of_getElem? h1
        have m2 := List.mem_of_getElem? h2
        have := ihm x m1 y (wmx x m1) (wmy y m2) (by rw [cmx x m1, cmy y m2])
        grind
    have hk : (∀ (i : Nat) x y, ks[i]? = some x → ks'[i]? = some y → Obj.eq x y = true) ↔
        (∀ (i : Nat) x y, ks[i]? = some x → ks'[i]? = some y → SameData x y) := by
      constructor <;> intro h i x y h1 h2
      all_goals
        have m1 := List.mem_of_getElem? h1
        have m2 := List.mem_of_getElem? h2
        have := ihk x m1 y (wkx x m1) (wky y m2) (by
          have e1 := ckx x m1; have e2 := cky y m2; rw [hc] at e1; rw [← e2] at e1; exact Option.some.inj e1)
        grind
    have hcont : ∀ s, contEq (some s) (some s) ks.length ks'.length (Obj.zipEq ks ks') = true ↔ ks.length = ks'.length ∧
        (∀ (i : Nat) x y, ks[i]? = some x → ks'[i]? = some y → SameData x y) := by
      intro s; simp [contEq, zipEq_iff, hk]
    have hcontm : ∀ s, contEq (some s) (some s) md.length md'.length (Obj.zipEq md md') = true ↔ md.length = md'.length ∧
        (∀ (i : Nat) x y, md[i]? = some x → md'[i]? = some y → SameData x y) := by
      intro s; simp [contEq, zipEq_iff, hm]
    have hspec : SameData (.mk a md ks) (.mk b md' ks') ↔
        a.cls = b.cls ∧ a.id = b.id ∧ a.type = b.type ∧ a.ns = b.ns ∧ a.text = b.text ∧
        a.name = b.name ∧ a.attrs.Perm b.attrs ∧ md.length = md'.length ∧ ks.length = ks'.length ∧
        (∀ (i : Nat) x y, md[i]? = some x → md'[i]? = some y → SameData x y) ∧
        (∀ (i : Nat) x y, ks[i]? = some x → ks'[i]? = some y → SameData x y) := by
      constructor
      · rintro ⟨⟩; grind
      · rintro ⟨h1, h2, h3, h4, h5, h6, h7, h8, h9, h10, h11⟩
        exact .mk h1 h2 h3 h4 h5 h6 h7 h8 h9 h10 h11
    rw [hspec]
    have hname : a.cls ≠ .metaChild → a.name = none ∧ b.name = none := by
      intro h
      constructor
      · cases e : a.name with
        | none => rfl
        | some v => exact absurd (nx.1 (by simp [e])) h
      · cases e : b.name with
        | none => rfl
        | some v => exact absurd (ny.1 (by simp [e])) (by rw [← hc]; exact h)
    have hkids : contEq a.cls.contained b.cls.contained ks.length ks'.length (Obj.zipEq ks ks') = true ↔ (∃ c, a.cls.contained = some c) ∧
        ks.length = ks'.length ∧
        (∀ (i : Nat) x y, ks[i]? = some x → ks'[i]? = some y → SameData x y) := by
      rw [← hc]
      cases e : a.cls.contained with
      | none => simp [contEq]
      | some c => simp only [hcont]; simp
    have noki : ∀ {c : Cls}, a.cls = c → c.contained = none → ks = [] ∧ ks' = [] := by
      intro c e1 e2
      constructor
      · cases ks with
        | nil => rfl
        | cons z zs => have := ckx z (by simp); rw [e1, e2] at this; cases this
      · cases ks' with
        | nil => rfl
        | cons z zs => have := cky z (by simp); rw [← hc, e1, e2] at this; cases this
    unfold Obj.eq
    cases hac : a.cls
    all_goals
      simp only [hac, Bool.and_eq_true, decide_eq_true_eq, attrEq_iff ax ay, hkids, hcontm, ← hc]
      rw [hac] at tx mx
      rw [← hc, hac] at ty my
    case metaChild => simp [mx rfl, my rfl, Cls.contained]; grind
    all_goals
      have hn := hname (by rw [hac]; decide)
      rw [hn.1, hn.2]
    case item =>
      have := noki hac rfl
      simp [mx rfl, my rfl, this.1, this.2, Cls.hasText]; grind
    case metaC => simp [mx rfl, my rfl, Cls.hasText, Cls.contained]; grind
    case metadata => simp [mx rfl, my rfl, tx rfl, ty rfl, Cls.contained]; grind
    all_goals simp [tx rfl, ty rfl, Cls.contained, Cls.hasMd]; grind

theorem SameData.refl : ∀ x, SameData x x := by
  intro x
  induction x using Obj.ind with
  | h a md ks ihm ihk =>
    refine .mk rfl rfl rfl rfl rfl rfl (.refl _) rfl rfl ?_ ?_
    · intro i x y h1 h2; rw [h1] at h2; cases h2; exact ihm x (List.mem_of_getElem? h1)
    · intro i x y h1 h2; rw [h1] at h2; cases h2; exact ihk x (List.mem_of_getElem? h1)

theorem SameData.symm {x y : Obj} (h : SameData x y) : SameData y x := by
  induction h with
  | mk h1 h2 h3 h4 h5 h6 h7 h8 h9 _ _ ih1 ih2 =>
    exact .mk h1.symm h2.symm h3.symm h4.symm h5.symm h6.symm h7.symm h8.symm h9.symm
      (fun i x y h1 h2 => ih1 i y x h2 h1) (fun i x y h1 h2 => ih2 i y x h2 h1)

theorem SameData.trans {x y z : Obj} (h : SameData x y) : SameData y z → SameData x z := by
  induction h generalizing z with
  | @mk a b md md' ks ks' h1 h2 h3 h4 h5 h6 h7 h8 h9 _ _ ih1 ih2 =>
    intro h
    cases h with
    | @mk _ c _ md'' _ ks'' g1 g2 g3 g4 g5 g6 g7 g8 g9 g10 g11 =>
      have mid : ∀ {l l' : List Obj} {i : Nat} {x}, l.length = l'.length → l[i]? = some x → ∃ y, l'[i]? = some y := by
        intro l l' i x hl h
        have := (List.getElem?_eq_some_iff.1 h).1
        exact ⟨l'[i]'(by omega), List.getElem?_eq_getElem (by omega)⟩
      refine .mk (h1.trans g1) (h2.trans g2) (h3.trans g3) (h4.trans g4) (h5.trans g5) (h6.trans g6)
        (h7.trans g7) (h8.trans g8) (h9.trans g9) ?_ ?_
      · intro i x y e1 e2
        obtain ⟨m, hm⟩ := mid h8 e1
        exact ih1 i x m e1 hm (g10 i m y hm e2)
      · intro i x y e1 e2
        obtain ⟨m, hm⟩ := mid h9 e1
        exact ih2 i x m e1 hm (g11 i m y hm e2)

theorem SameData.cls {x y : Obj} (h : SameData x y) : x.cls = y.cls := by
  cases h; assumption

/-- objects of different classes are only equal for the mixed pairs -/
theorem eq_false_of_cls {x y : Obj} (hc : x.cls ≠ y.cls)
    (hm : ¬ (x.cls.hasText = true ∧ y.cls.hasText = true)) : Obj.eq x y = false := by
  obtain ⟨a, md, ks⟩ := x
  obtain ⟨b, md', ks'⟩ := y
  simp only [Obj.cls_mk] at hc hm
  unfold Obj.eq contEq
  cases ha : a.cls <;> cases hb : b.cls <;> simp_all [Cls.hasText, Cls.hasMd, Cls.contained]

end Xigt
