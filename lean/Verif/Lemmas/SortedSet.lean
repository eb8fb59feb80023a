import Verif.Model.Calendar

/-! Lemmas about `sortedSet`. -/

namespace Verif.Time

theorem mem_insertUnique (x : Int) (l : List Int) (y : Int) : y ∈ insertUnique x l ↔ y = x ∨ y ∈ l := by
  induction l with
  | nil => simp [insertUnique]
  | cons a l ih =>
    unfold insertUnique
    split
    · simp
    · split
      · rename_i h; subst h; simp
      · simp only [List.mem_cons, ih]; grind

theorem pairwise_insertUnique (x : Int) (l : List Int) (h : l.Pairwise (· < ·)) :
    (insertUnique x l).Pairwise (· < ·) := by
  induction l with
  | nil => simp [insertUnique]
  | cons a l ih =>
    have h' := List.pairwise_cons.mp h
    unfold insertUnique
    split
    · rename_i hx
      refine List.pairwise_cons.mpr ⟨?_, h⟩
      intro b hb
      rcases List.mem_cons.mp hb with rfl | hb
      · exact hx
      · have := h'.1 b hb; omega
    · split
      · exact h
      · refine List.pairwise_cons.mpr ⟨?_, ih h'.2⟩
        intro b hb
        rcases (mem_insertUnique x l b).mp hb with rfl | hb
        · omega
        · exact h'.1 b hb

theorem mem_sortedSet (l : List Int) (y : Int) : y ∈ sortedSet l ↔ y ∈ l := by
  unfold sortedSet
  induction l with
  | nil => simp
  | cons a l ih => simp [mem_insertUnique, ih]

theorem pairwise_sortedSet (l : List Int) : (sortedSet l).Pairwise (· < ·) := by
  unfold sortedSet
  induction l with
  | nil => simp
  | cons a l ih => exact pairwise_insertUnique _ _ ih

/-- A strictly increasing list is determined by its members. -/
theorem strict_ext {l m : List Int} (hl : l.Pairwise (· < ·)) (hm : m.Pairwise (· < ·))
    (h : ∀ x, x ∈ l ↔ x ∈ m) : l = m := by
  induction l generalizing m with
  | nil =>
    cases m with
    | nil => rfl
    | cons b m => exact absurd ((h b).mpr (by simp)) (by simp)
  | cons a l ih =>
    cases m with
    | nil => exact absurd ((h a).mp (by simp)) (by simp)
    | cons b m =>
      have hl' := List.pairwise_cons.mp hl
      have hm' := List.pairwise_cons.mp hm
      have hab : a = b := by
        have h1 := (h a).mp (by simp)
        have h2 := (h b).mpr (by simp)
        rcases List.mem_cons.mp h1 with e | e
        · exact e
        · rcases List.mem_cons.mp h2 with e' | e'
          · exact e'.symm
          · have := hl'.1 b e'; have := hm'.1 a e; omega
      subst hab
      congr 1
      apply ih hl'.2 hm'.2
      intro x
      constructor
      · intro hx
        rcases List.mem_cons.mp ((h x).mp (List.mem_cons_of_mem _ hx)) with e | e
        · subst e; have := hl'.1 x hx; omega
        · exact e
      · intro hx
        rcases List.mem_cons.mp ((h x).mpr (List.mem_cons_of_mem _ hx)) with e | e
        · subst e; have := hm'.1 x hx; omega
        · exact e

end Verif.Time
