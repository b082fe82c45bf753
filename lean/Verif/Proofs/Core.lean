import Verif.Proofs.Shape

/-! The reference-counting core of the machine, independent of loads and goroutines. -/

namespace Hotswap

/-- `holds`: the references held; `zs`: instances whose count has dropped to zero and whose `freeOnce.Do` is about to
run; `ins`: instances whose `OnFree` is running; `regs`: registered instances; `begins`, `ends`: the `OnFree` calls begun
and ended. -/
structure Core (refs : Nat → Int) (once : Nat → Bool) (holds zs ins regs begins ends : List Nat) : Prop where
  refs_eq : ∀ i, refs i = (holds.count i : Int)
  unshared : (zs ++ ins).Nodup
  zero : ∀ i ∈ zs, i ∈ regs ∧ i ∉ holds ∧ once i = false
  inside : ∀ i ∈ ins, once i = true
  once_ok : ∀ i, once i = true → i ∈ regs ∧ i ∉ holds
  done : ∀ i ∈ regs, i ∉ holds → once i = true ∨ i ∈ zs
  held : ∀ i ∈ holds, i ∈ regs
  begins_eq : ∀ i, begins.count i = if once i then 1 else 0
  ends_eq : ∀ i, ends.count i + ins.count i = begins.count i

variable {refs : Nat → Int} {once : Nat → Bool} {holds zs ins regs begins ends : List Nat}

namespace Core

theorem congr (h : Core refs once holds zs ins regs begins ends) {holds' zs' ins' : List Nat}
    (hh : holds'.Perm holds) (hz : zs'.Perm zs) (hi : ins'.Perm ins) :
    Core refs once holds' zs' ins' regs begins ends := by
  refine ⟨?_, ?_, ?_, ?_, ?_, ?_, ?_, h.begins_eq, ?_⟩
  · intro i; rw [h.refs_eq, hh.count_eq]
  · exact (hz.append hi).symm.nodup h.unshared
  · intro i hi'
    obtain ⟨h1, h2, h3⟩ := h.zero i (hz.mem_iff.mp hi')
    exact ⟨h1, fun hm => h2 (hh.mem_iff.mp hm), h3⟩
  · intro i hi'; exact h.inside i (hi.mem_iff.mp hi')
  · intro i ho
    obtain ⟨h1, h2⟩ := h.once_ok i ho
    exact ⟨h1, fun hm => h2 (hh.mem_iff.mp hm)⟩
  · intro i hr hn
    rcases h.done i hr (fun hm => hn (hh.mem_iff.mpr hm)) with h | h
    · exact .inl h
    · exact .inr (hz.mem_iff.mpr h)
  · intro i hi'; exact h.held i (hh.mem_iff.mp hi')
  · intro i; rw [hi.count_eq]; exact h.ends_eq i

theorem init : Core (fun _ => 0) (fun _ => false) [] [] [] [] [] [] := by
  refine ⟨?_, ?_, ?_, ?_, ?_, ?_, ?_, ?_, ?_⟩ <;> simp

theorem register (h : Core refs once holds zs ins regs begins ends) {i : Nat} (hi : i ∉ regs) :
    Core (upd refs i 1) once (i :: holds) zs ins (regs ++ [i]) begins ends := by
  have hnh : i ∉ holds := fun hm => hi (h.held i hm)
  refine ⟨?_, h.unshared, ?_, h.inside, ?_, ?_, ?_, h.begins_eq, h.ends_eq⟩
  · intro j
    unfold upd
    by_cases hj : j = i
    · subst hj; simp [List.count_eq_zero_of_not_mem hnh]
    · have : ¬ i = j := fun e => hj e.symm
      simp [hj, List.count_cons, this, h.refs_eq]
  · intro j hj
    obtain ⟨h1, h2, h3⟩ := h.zero j hj
    refine ⟨by simp [h1], ?_, h3⟩
    rw [List.mem_cons, not_or]
    exact ⟨fun e => hi (e ▸ h1), h2⟩
  · intro j hj
    obtain ⟨h1, h2⟩ := h.once_ok j hj
    refine ⟨by simp [h1], ?_⟩
    rw [List.mem_cons, not_or]
    exact ⟨fun e => hi (e ▸ h1), h2⟩
  · intro j hj hn
    rw [List.mem_cons, not_or] at hn
    rcases List.mem_append.mp hj with hj | hj
    · exact h.done j hj hn.2
    · simp at hj; exact absurd hj hn.1
  · intro j hj
    rcases List.mem_cons.mp hj with rfl | hj
    · simp
    · simp [h.held j hj]

theorem inc (h : Core refs once holds zs ins regs begins ends) {i : Nat} (hi : i ∈ holds) :
    Core (upd refs i (refs i + 1)) once (i :: holds) zs ins regs begins ends := by
  have hreg := h.held i hi
  refine ⟨?_, h.unshared, ?_, h.inside, ?_, ?_, ?_, h.begins_eq, h.ends_eq⟩
  · intro j
    unfold upd
    by_cases hj : j = i
    · subst hj; simp [h.refs_eq]
    · have : ¬ i = j := fun e => hj e.symm
      simp [hj, List.count_cons, this, h.refs_eq]
  · intro j hj
    obtain ⟨h1, h2, h3⟩ := h.zero j hj
    refine ⟨h1, ?_, h3⟩
    rw [List.mem_cons, not_or]
    exact ⟨fun e => h2 (e ▸ hi), h2⟩
  · intro j hj
    obtain ⟨h1, h2⟩ := h.once_ok j hj
    refine ⟨h1, ?_⟩
    rw [List.mem_cons, not_or]
    exact ⟨fun e => h2 (e ▸ hi), h2⟩
  · intro j hj hn
    rw [List.mem_cons, not_or] at hn
    exact h.done j hj hn.2
  · intro j hj
    rcases List.mem_cons.mp hj with rfl | hj
    · exact hreg
    · exact h.held j hj

/-- `Refs.Dec()`. -/
theorem dec {i : Nat} (h : Core refs once (i :: holds) zs ins regs begins ends) :
    Core (upd refs i (refs i - 1)) once holds (if refs i - 1 > 0 then zs else i :: zs) ins regs begins ends := by
  have hr : refs i = (holds.count i : Int) + 1 := by rw [h.refs_eq]; simp
  have hreg := h.held i (by simp)
  have honce : once i = false := by
    cases ho : once i with
    | false => rfl
    | true => exact absurd (List.mem_cons_self ..) (h.once_ok i ho).2
  have hrefs : ∀ j, upd refs i (refs i - 1) j = (holds.count j : Int) := by
    intro j
    unfold upd
    by_cases hj : j = i
    · subst hj; simp [hr]
    · have : ¬ i = j := fun e => hj e.symm
      simp [hj, h.refs_eq, List.count_cons, this]
  have hnz : i ∉ zs := fun hm => (h.zero i hm).2.1 (List.mem_cons_self ..)
  have hni : i ∉ ins := fun hm => by rw [h.inside i hm] at honce; cases honce
  have hmemb : ∀ j, j ∉ i :: holds → j ∉ holds := fun j hj hm => hj (List.mem_cons_of_mem _ hm)
  by_cases hpos : refs i - 1 > 0
  · rw [if_pos hpos]
    have hmem : i ∈ holds := by
      rw [hr] at hpos
      have : 0 < holds.count i := by omega
      exact List.count_pos_iff.mp this
    refine ⟨hrefs, h.unshared, ?_, h.inside, ?_, ?_, ?_, h.begins_eq, h.ends_eq⟩
    · intro j hj; obtain ⟨h1, h2, h3⟩ := h.zero j hj; exact ⟨h1, hmemb j h2, h3⟩
    · intro j hj; obtain ⟨h1, h2⟩ := h.once_ok j hj; exact ⟨h1, hmemb j h2⟩
    · intro j hj hn
      refine h.done j hj ?_
      rw [List.mem_cons, not_or]
      exact ⟨fun e => hn (e ▸ hmem), hn⟩
    · intro j hj; exact h.held j (List.mem_cons_of_mem _ hj)
  · rw [if_neg hpos]
    have hnm : i ∉ holds := by
      intro hm
      have := List.count_pos_iff.mpr hm
      omega
    refine ⟨hrefs, ?_, ?_, h.inside, ?_, ?_, ?_, h.begins_eq, h.ends_eq⟩
    · rw [List.cons_append, List.nodup_cons]
      refine ⟨?_, h.unshared⟩
      rw [List.mem_append, not_or]
      exact ⟨hnz, hni⟩
    · intro j hj
      rcases List.mem_cons.mp hj with rfl | hj
      · exact ⟨hreg, hnm, honce⟩
      · obtain ⟨h1, h2, h3⟩ := h.zero j hj; exact ⟨h1, hmemb j h2, h3⟩
    · intro j hj; obtain ⟨h1, h2⟩ := h.once_ok j hj; exact ⟨h1, hmemb j h2⟩
    · intro j hj hn
      by_cases hji : j = i
      · subst hji; exact .inr (List.mem_cons_self ..)
      · rcases h.done j hj (by rw [List.mem_cons, not_or]; exact ⟨hji, hn⟩) with h | h
        · exact .inl h
        · exact .inr (List.mem_cons_of_mem _ h)
    · intro j hj; exact h.held j (List.mem_cons_of_mem _ hj)

/-- `freeOnce.Do` begins. -/
theorem start {i : Nat} (h : Core refs once holds (i :: zs) ins regs begins ends) :
    once i = false ∧ begins.count i = 0 ∧ i ∈ regs ∧ i ∉ holds ∧
      Core refs (upd once i true) holds zs (i :: ins) regs (begins ++ [i]) ends := by
  obtain ⟨h1, h2, h3⟩ := h.zero i (List.mem_cons_self ..)
  have hb := h.begins_eq i
  rw [h3] at hb
  have hun := h.unshared
  rw [List.cons_append, List.nodup_cons] at hun
  have hnz : i ∉ zs := fun hm => hun.1 (List.mem_append_left _ hm)
  refine ⟨h3, by simpa using hb, h1, h2, ?_⟩
  refine ⟨h.refs_eq, ?_, ?_, ?_, ?_, ?_, h.held, ?_, ?_⟩
  · exact List.perm_middle.symm.nodup (by rw [List.nodup_cons]; exact hun)
  · intro j hj
    obtain ⟨a, b, c⟩ := h.zero j (List.mem_cons_of_mem _ hj)
    refine ⟨a, b, ?_⟩
    unfold upd
    rw [if_neg]
    · exact c
    · intro e; exact hnz (e ▸ hj)
  · intro j hj
    unfold upd
    rcases List.mem_cons.mp hj with rfl | hj
    · simp
    · split
      · rfl
      · exact h.inside j hj
  · intro j hj
    unfold upd at hj
    split at hj
    · rename_i e; subst e; exact ⟨h1, h2⟩
    · exact h.once_ok j hj
  · intro j hj hn
    unfold upd
    by_cases hji : j = i
    · simp [hji]
    · rw [if_neg hji]
      rcases h.done j hj hn with h | h
      · exact .inl h
      · rcases List.mem_cons.mp h with h | h
        · exact absurd h hji
        · exact .inr h
  · intro j
    rw [List.count_append, h.begins_eq]
    unfold upd
    by_cases hji : j = i
    · subst hji; simp [h3]
    · have : ¬ i = j := fun e => hji e.symm
      simp [hji, this]
  · intro j
    rw [List.count_append, List.count_cons, ← h.ends_eq j]
    by_cases hji : j = i
    · subst hji; simp; omega
    · have : ¬ i = j := fun e => hji e.symm
      simp [this]

/-- `OnFree` returns. -/
theorem stop {i : Nat} (h : Core refs once holds zs (i :: ins) regs begins ends) :
    Core refs once holds zs ins regs begins (ends ++ [i]) := by
  refine ⟨h.refs_eq, ?_, h.zero, fun j hj => h.inside j (List.mem_cons_of_mem _ hj), h.once_ok, h.done, h.held, h.begins_eq, ?_⟩
  · have := List.perm_middle.nodup h.unshared
    exact (List.nodup_cons.mp this).2
  · intro j
    have := h.ends_eq j
    rw [List.count_cons] at this
    rw [List.count_append, List.count_singleton]
    by_cases hji : j = i
    · subst hji; simp at this ⊢; omega
    · have e : ¬ i = j := fun e => hji e.symm
      simp [e] at this ⊢; exact this

/-- The reference counts are never negative. -/
theorem nonneg (h : Core refs once holds zs ins regs begins ends) (i : Nat) : 0 ≤ refs i := by
  rw [h.refs_eq]; omega

end Core
end Hotswap
