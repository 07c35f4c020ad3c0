import Verif.Ref.Spec
/- Numerals written by `str(n)`: they consist of digits and have the value `n`. -/
set_option linter.unusedSectionVars false

namespace Xigt
variable [Uni]

theorem digitChar_digit {d : Nat} (h : d < 10) : Uni.digit (digitChar d) = some d := by
  have : ∀ d : Fin 10, (digitChar d.1).toNat = 48 + d.1 := by decide
  have e := this ⟨d, h⟩
  simp only at e
  rw [Uni.ascii_digit _ (by omega), if_pos (by omega), e]
  simp

theorem natStrAux_digits : ∀ (f n : Nat), ∀ c ∈ natStrAux f n, (Uni.digit c).isSome = true := by
  intro f
  induction f with
  | zero => intro n c hc; simp [natStrAux] at hc
  | succ f ih =>
    intro n c hc
    simp only [natStrAux] at hc
    split at hc
    · rename_i h
      simp only [List.mem_singleton] at hc
      rw [hc, digitChar_digit h]; rfl
    · rcases List.mem_append.1 hc with hc | hc
      · exact ih _ c hc
      · simp only [List.mem_singleton] at hc
        rw [hc, digitChar_digit (Nat.mod_lt _ (by omega))]; rfl

theorem natStr_digits (n : Nat) : ∀ c ∈ natStr n, (Uni.digit c).isSome = true := natStrAux_digits _ _

theorem natStr_ne_nil (n : Nat) : natStr n ≠ [] := by
  unfold natStr natStrAux
  split <;> simp

theorem decVal_snoc (s : Str) (c : Char) : decVal (s ++ [c]) = 10 * decVal s + (Uni.digit c).getD 0 := by
  simp [decVal, List.foldl_append]

theorem decVal_natStrAux : ∀ (f n : Nat), n < f → decVal (natStrAux f n) = n := by
  intro f
  induction f with
  | zero => intro n h; omega
  | succ f ih =>
    intro n h
    simp only [natStrAux]
    split
    · rename_i h10
      have := decVal_snoc [] (digitChar n)
      simp only [List.nil_append, digitChar_digit h10] at this
      rw [this]; simp [decVal]
    · rw [decVal_snoc, ih (n / 10) (by omega), digitChar_digit (Nat.mod_lt _ (by omega))]
      simp only [Option.getD_some]
      omega

theorem decVal_natStr (n : Nat) : decVal (natStr n) = n := decVal_natStrAux _ _ (by omega)

theorem natStr_inj {m n : Nat} (h : natStr m = natStr n) : m = n := by
  rw [← decVal_natStr m, h, decVal_natStr]

/-- `str(n)` as a numeral -/
def natNum (n : Nat) : Num := ⟨false, natStr n⟩

theorem natNum_ok (n : Nat) : (natNum n).OK := ⟨natStr_ne_nil n, natStr_digits n⟩
theorem natNum_value (n : Nat) : (natNum n).value = n := by
  simp [natNum, Num.value, decVal_natStr]
theorem natNum_render (n : Nat) : (natNum n).render = natStr n := by simp [natNum, Num.render]

theorem natStr_idChar (n : Nat) : ∀ c ∈ natStr n, idChar c = true := by
  intro c hc
  have := natStr_digits n c hc
  obtain ⟨d, hd⟩ := Option.isSome_iff_exists.1 this
  simp [idChar, Uni.digit_word c d hd]

/-- an ID continued by a number is an ID -/
theorem IdOK.number {i : Str} (h : IdOK i) (n : Nat) : IdOK (i ++ natStr n) := by
  obtain ⟨c, cs, rfl, hc, hcs⟩ := h
  refine ⟨c, cs ++ natStr n, by simp, hc, ?_⟩
  intro x hx
  rcases List.mem_append.1 hx with hx | hx
  · exact hcs x hx
  · exact natStr_idChar n x hx

end Xigt
