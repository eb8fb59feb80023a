/-! General list lemmas used by several property files. -/

namespace Verif.ListAux

/-- A filter whose predicate holds exactly on an index interval is the Python slice of that interval. -/
theorem filter_eq_slice {α : Type} (P : α → Bool) (l : List α) (i j : Nat)
    (h : ∀ k (hk : k < l.length), P l[k] = true ↔ i ≤ k ∧ k < j) :
    l.filter P = (l.take j).drop i := by
  induction l generalizing i j with
  | nil => simp
  | cons a l ih =>
    have h0 := h 0 (by simp)
    have hs : ∀ k (hk : k < l.length), P l[k] = true ↔ i ≤ k + 1 ∧ k + 1 < j := by
      intro k hk
      have := h (k + 1) (by simp; omega)
      simpa using this
    cases j with
    | zero =>
      have e := ih i 0 (by intro k hk; rw [hs k hk]; omega)
      simp at h0
      simp [h0]
      intro a' ha'
      have : ¬ a' ∈ l.filter P := by rw [e]; simp
      simpa [ha'] using this
    | succ j =>
      cases i with
      | zero =>
        have e := ih 0 j (by intro k hk; rw [hs k hk]; omega)
        simp at h0
        simp [h0] at *
        rw [e]
      | succ i =>
        have e := ih i j (by intro k hk; rw [hs k hk]; omega)
        simp at h0
        simp [h0] at *
        rw [e]

theorem idxOf?_some {l : List Int} {a : Int} {i : Nat} (h : l.idxOf? a = some i) :
    ∃ hi : i < l.length, l[i] = a := by
  induction l generalizing i with
  | nil => simp [List.idxOf?] at h
  | cons b l ih =>
    rw [List.idxOf?_cons] at h
    split at h
    · rename_i hb
      simp at h hb
      subst h
      exact ⟨by simp, by simpa using hb⟩
    · simp only [Option.map_eq_some_iff] at h
      obtain ⟨k, hk, rfl⟩ := h
      obtain ⟨hk1, hk2⟩ := ih hk
      exact ⟨by simp; omega, by simpa using hk2⟩

theorem idxOf?_isSome {l : List Int} {a : Int} (h : a ∈ l) : ∃ i, l.idxOf? a = some i := by
  cases e : l.idxOf? a with
  | some i => exact ⟨i, rfl⟩
  | none => simp at e; exact absurd h e

end Verif.ListAux
