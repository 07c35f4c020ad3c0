import Verif.Igt.Model
import Verif.Container.Props
/-
C05 for the containers as Igt/Model.lean sees them: a search of the contents gives what the container with its
index (Container/Model.lean) gives.
-/

set_option linter.unusedSectionVars false

namespace Xigt

section
variable {β : Type} [Uni]

/-- C05: let the contents of a container, after any history on any containers (with the two exceptions named in
`Benign`), have the IDs of `xs`, in order.  Then `container[s]` and `container.get(s)` give for every string the
object at the same position as the search of `xs`, or fail alike. -/
theorem C05_contents (beq : β → β → Bool) (w : World β) (h0 : Fresh w) (hist : List (Nat × Op β))
    (hb : BenignHist beq w hist) (k : Nat) (xs : List Obj)
    (hx : ((runHist beq w hist).cont k).list.map (fun a => ((runHist beq w hist).obj a).id) = xs.map (·.data.id)) (s : Str) :
    (∃ e, getItem (runHist beq w hist) k (.str s) = .error e ∧ contItem xs s = .error e ∧ contGet xs s = none) ∨
    (∃ (n a : Nat) (x : Obj), ((runHist beq w hist).cont k).list[n]? = some a ∧ xs[n]? = some x ∧
      getItem (runHist beq w hist) k (.str s) = .ok (.one a) ∧ contItem xs s = .ok x ∧ contGet xs s = some x) := by
  have hs := sync_hist beq hist w hb (sync_fresh h0) k
  generalize runHist beq w hist = W at *
  have hlen : xs.length = (W.cont k).list.length := by
    have := congrArg List.length hx
    simpa using this.symm
  have hid : ∀ (n a : Nat) (x : Obj), (W.cont k).list[n]? = some a → xs[n]? = some x → (W.obj a).id = x.data.id := by
    intro n a x ha hx'
    have := congrArg (fun l => l[n]?) hx
    simp only [List.getElem?_map, ha, hx', Option.map_some] at this
    exact Option.some.inj this
  cases hf : xs.find? (fun x => decide (x.data.id = some s)) with
  | some x =>
    right
    obtain ⟨n, hn⟩ := List.getElem?_of_mem (List.mem_of_find?_eq_some hf)
    have hl : n < (W.cont k).list.length := by
      have := (List.getElem?_eq_some_iff.1 hn).1
      omega
    have ha : (W.cont k).list[n]? = some ((W.cont k).list[n]) := List.getElem?_eq_getElem hl
    have hxs : x.data.id = some s := by simpa using List.find?_some hf
    refine ⟨n, _, x, ha, hn, ?_, by rw [contItem, hf], by rw [contGet, hf]⟩
    have := (hs.map s _).2 ⟨List.mem_of_getElem? ha, (hid n _ x ha hn).trans hxs⟩
    simp only [getItem, this]
  | none =>
    have hd : Dict.get? (W.cont k).dict s = none := by
      cases h : Dict.get? (W.cont k).dict s with
      | none => rfl
      | some a =>
        obtain ⟨h1, h2⟩ := (hs.map s a).1 h
        obtain ⟨n, hn⟩ := List.getElem?_of_mem h1
        have hl : n < xs.length := by
          have := (List.getElem?_eq_some_iff.1 hn).1
          omega
        have hxn := List.getElem?_eq_getElem hl
        have := List.find?_eq_none.1 hf _ (List.mem_of_getElem? hxn)
        simp only [decide_eq_true_eq] at this
        exact absurd ((hid n a _ hn hxn).symm.trans h2) this
    cases hp : pyInt s with
    | error e =>
      left
      exact ⟨.keyError, by simp only [getItem, hd, hp], by simp only [contItem, hf, hp], by simp only [contGet, hf, hp]⟩
    | ok i =>
      cases hi : pyIdx xs.length i with
      | none =>
        left
        refine ⟨.indexError, ?_, ?_, ?_⟩
        · simp only [getItem, hd, hp, pyGet, ← hlen, hi]; rfl
        · simp only [contItem, hf, hp, pyGet, hi]
        · simp only [contGet, hf, hp, pyGet, hi]; rfl
      | some n =>
        have hn : n < xs.length := by
          unfold pyIdx at hi
          split at hi <;> split at hi <;> cases hi <;> omega
        have hxn := List.getElem?_eq_getElem hn
        have ha : (W.cont k).list[n]? = some ((W.cont k).list[n]'(by omega)) := List.getElem?_eq_getElem (by omega)
        right
        refine ⟨n, _, _, ha, hxn, ?_, ?_, ?_⟩
        · simp only [getItem, hd, hp, pyGet, ← hlen, hi, ha]; rfl
        · simp only [contItem, hf, hp, pyGet, hi, hxn]
        · simp only [contGet, hf, hp, pyGet, hi, hxn]; rfl

end

section
attribute [local instance] asciiUni

/-- items with the IDs `a` and `b` -/
def exItems : List Obj := [.mk { cls := .item, id := some ['a'] } [] [], .mk { cls := .item, id := some ['b'] } [] []]

/-- C05_contents for a container with two items: `b` and `1` are the second -/
example : BenignHist (· == ·) exWorld [(0, .append 0), (0, .append 2)] ∧
    ((runHist (· == ·) exWorld [(0, .append 0), (0, .append 2)]).cont 0).list.map
      (fun a => ((runHist (· == ·) exWorld [(0, .append 0), (0, .append 2)]).obj a).id) = exItems.map (·.data.id) ∧
    contGet exItems ['b'] = exItems[1]? ∧ contGet exItems ['1'] = exItems[1]? ∧ contGet exItems ['2'] = none :=
  ⟨⟨trivial, trivial, trivial⟩, by decide +kernel, rfl, rfl, rfl⟩

end
end Xigt
