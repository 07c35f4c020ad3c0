import Verif.Tree.Model
/- A check of well-formedness, for concrete objects in examples. -/

namespace Xigt

/-- well-formedness (Tree/Model.lean), of objects nested at most so deeply -/
def Obj.wfB : Nat → Obj → Bool
  | 0, _ => false
  | n + 1, .mk d md kids => decide (d.attrs.map Prod.fst).Nodup && (d.cls.hasText || d.text.isNone) &&
      (d.name.isSome == decide (d.cls = .metaChild)) && (d.cls.hasMd || md.isEmpty) &&
      (md.all fun x => decide (x.cls = .metadata)) && (kids.all fun x => decide (some x.cls = d.cls.contained)) &&
      (md.all fun x => x.wfB n) && kids.all fun x => x.wfB n

theorem wf_of_B {n : Nat} : ∀ {x : Obj}, x.wfB n = true → x.WF := by
  induction n with
  | zero => intro x h; exact absurd h (by simp [Obj.wfB])
  | succ n ih =>
    intro x h
    obtain ⟨d, md, kids⟩ := x
    simp only [Obj.wfB, Bool.and_eq_true, Bool.or_eq_true, decide_eq_true_eq, List.all_eq_true, Option.isNone_iff_eq_none,
      List.isEmpty_iff, beq_iff_eq] at h
    obtain ⟨⟨⟨⟨⟨⟨⟨h1, h2⟩, h3⟩, h4⟩, h5⟩, h6⟩, h7⟩, h8⟩ := h
    refine .mk h1 (fun h => h2.resolve_left (by simp [h])) (by rw [h3]; simp) (fun h => h4.resolve_left (by simp [h])) h5 h6
      (fun x hx => ih (h7 x hx)) fun x hx => ih (h8 x hx)

end Xigt
