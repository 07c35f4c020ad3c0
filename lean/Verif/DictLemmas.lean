import Verif.Py
/- Helper lemmas about dictionaries as association lists. -/

namespace Xigt.Dict
variable {κ ν : Type} [DecidableEq κ]

theorem get?_set (d : Dict κ ν) (k j : κ) (v : ν) :
    get? (set d k v) j = if k = j then some v else get? d j := by
  induction d with
  | nil => simp [set, get?]
  | cons p d ih =>
    obtain ⟨k', v'⟩ := p
    simp only [set]
    by_cases h : k' = k
    · subst h
      by_cases h2 : k' = j <;> simp [get?, h2]
    · rw [if_neg h]
      simp only [get?, ih]
      by_cases h2 : k' = j
      · subst h2; rw [if_pos rfl, if_pos rfl, if_neg (fun e => h e.symm)]
      · simp [h2]

theorem keys_set (d : Dict κ ν) (k : κ) (v : ν) :
    keys (set d k v) = if has d k then keys d else keys d ++ [k] := by
  induction d with
  | nil => simp [set, keys, has, get?]
  | cons p d ih =>
    obtain ⟨k', v'⟩ := p
    simp only [set]
    by_cases h : k' = k
    · subst h; simp [keys, has, get?]
    · simp only [h, if_false]
      have : has ((k', v') :: d) k = has d k := by simp [has, get?, h]
      rw [this]
      simp only [keys, List.map_cons] at ih ⊢
      rw [ih]
      split <;> simp

theorem get?_eq_none_iff (d : Dict κ ν) (k : κ) : get? d k = none ↔ k ∉ keys d := by
  induction d with
  | nil => simp [get?, keys]
  | cons p d ih =>
    obtain ⟨k', v'⟩ := p
    by_cases h : k' = k
    · subst h; simp [get?, keys]
    · have : ¬ k = k' := fun e => h e.symm
      simp only [keys] at ih
      simp [get?, h, keys, this, ih]

theorem has_iff (d : Dict κ ν) (k : κ) : has d k = true ↔ k ∈ keys d := by
  rw [has, ← Decidable.not_iff_not, ← get?_eq_none_iff]
  cases get? d k <;> simp

theorem has_false_iff (d : Dict κ ν) (k : κ) : has d k = false ↔ get? d k = none := by
  rw [has]; cases get? d k <;> simp

theorem has_true_iff (d : Dict κ ν) (k : κ) : has d k = true ↔ ∃ v, get? d k = some v := by
  rw [has]; cases get? d k <;> simp

theorem WF.set {d : Dict κ ν} (h : WF d) (k : κ) (v : ν) : WF (set d k v) := by
  unfold WF
  rw [keys_set]
  split
  · exact h
  · rename_i hk
    rw [has_iff] at hk
    rw [List.nodup_append]
    exact ⟨h, by simp, by intro a ha b hb; simp at hb; rintro rfl; exact hk (hb ▸ ha)⟩

theorem wf_nil : WF ([] : Dict κ ν) := by simp [WF, keys]

theorem keys_del_sublist (d : Dict κ ν) (k : κ) : (keys (del d k)).Sublist (keys d) := by
  induction d with
  | nil => simp [del, keys]
  | cons p d ih =>
    obtain ⟨k', v'⟩ := p
    simp only [del]
    split
    · simp [keys]
    · simp only [keys, List.map_cons] at ih ⊢
      exact ih.cons₂ _

theorem WF.del {d : Dict κ ν} (h : WF d) (k : κ) : WF (del d k) := h.sublist (keys_del_sublist d k)

theorem get?_del {d : Dict κ ν} (h : WF d) (k j : κ) :
    get? (del d k) j = if k = j then none else get? d j := by
  induction d with
  | nil => simp [del, get?]
  | cons p d ih =>
    obtain ⟨k', v'⟩ := p
    have hwf : WF d := by unfold WF keys at h ⊢; exact (List.nodup_cons.1 h).2
    have hk' : k' ∉ keys d := by unfold WF keys at h; exact (List.nodup_cons.1 h).1
    simp only [Dict.del]
    by_cases h1 : k' = k
    · subst h1
      rw [if_pos rfl]
      by_cases h2 : k' = j
      · subst h2; rw [if_pos rfl]; exact (get?_eq_none_iff d k').2 hk'
      · simp [get?, h2]
    · rw [if_neg h1]
      simp only [get?, ih hwf]
      by_cases h2 : k' = j
      · subst h2; rw [if_pos rfl, if_pos rfl, if_neg (fun e => h1 e.symm)]
      · simp [h2]

theorem get?_mem {d : Dict κ ν} {k : κ} {v : ν} (h : get? d k = some v) : (k, v) ∈ d := by
  induction d with
  | nil => cases h
  | cons p d ih =>
    obtain ⟨k', v'⟩ := p
    simp only [get?] at h
    split at h
    · rename_i e; subst e; cases h; simp
    · exact List.mem_cons_of_mem _ (ih h)

theorem get?_of_mem {d : Dict κ ν} (hd : WF d) {k : κ} {v : ν} (h : (k, v) ∈ d) :
    get? d k = some v := by
  induction d with
  | nil => cases h
  | cons p d ih =>
    obtain ⟨k', v'⟩ := p
    have hwf : WF d := by unfold WF keys at hd ⊢; exact (List.nodup_cons.1 hd).2
    have hk' : k' ∉ keys d := by unfold WF keys at hd; exact (List.nodup_cons.1 hd).1
    rcases List.mem_cons.1 h with h | h
    · cases h; simp [get?]
    · have : k' ≠ k := by
        rintro rfl; exact hk' (List.mem_map.2 ⟨(k', v), h, rfl⟩)
      simp [get?, this, ih hwf h]

end Xigt.Dict
