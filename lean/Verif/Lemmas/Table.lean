import Mathlib.Tactic.Linarith
import Mathlib.Tactic.Ring
import Mathlib.Tactic.FieldSimp
import Mathlib.Algebra.Order.Field.Basic
import Verif.Model.Table

/-! # Helper lemmas about table lookup -/

namespace Verif.TableLemmas
open Verif.Time Verif.Table

theorem mem_insertRow (r s : ℚ × ℚ) (l : List (ℚ × ℚ)) : s ∈ insertRow r l ↔ s = r ∨ s ∈ l := by
  induction l with
  | nil => simp [insertRow]
  | cons a l ih =>
    unfold insertRow
    split
    · simp
    · simp only [List.mem_cons, ih]; tauto

theorem insertRow_sorted (r : ℚ × ℚ) (l : List (ℚ × ℚ)) (h : l.Pairwise (fun a b => a.1 ≤ b.1)) :
    (insertRow r l).Pairwise (fun a b => a.1 ≤ b.1) := by
  induction l with
  | nil => simp [insertRow]
  | cons a l ih =>
    obtain ⟨h1, h2⟩ := List.pairwise_cons.mp h
    unfold insertRow
    split
    · rename_i hlt
      refine List.pairwise_cons.mpr ⟨fun b hb => ?_, h⟩
      rcases List.mem_cons.mp hb with rfl | hb
      · exact le_of_lt hlt
      · exact le_trans (le_of_lt hlt) (h1 b hb)
    · rename_i hlt
      refine List.pairwise_cons.mpr ⟨fun b hb => ?_, ih h2⟩
      rcases (mem_insertRow r b l).mp hb with rfl | hb
      · exact not_lt.mp hlt
      · exact h1 b hb

theorem sort_aux (rows acc : List (ℚ × ℚ)) (h : acc.Pairwise (fun a b => a.1 ≤ b.1)) :
    (rows.foldl (fun acc r => insertRow r acc) acc).Pairwise (fun a b => a.1 ≤ b.1) ∧
    ∀ s, s ∈ rows.foldl (fun acc r => insertRow r acc) acc ↔ s ∈ rows ∨ s ∈ acc := by
  induction rows generalizing acc with
  | nil => simp [h]
  | cons r rows ih =>
    obtain ⟨h1, h2⟩ := ih (insertRow r acc) (insertRow_sorted r acc h)
    refine ⟨h1, fun s => ?_⟩
    rw [List.foldl_cons, h2, mem_insertRow, List.mem_cons]; tauto

theorem sortRows_sorted (rows : List (ℚ × ℚ)) : (sortRows rows).Pairwise (fun a b => a.1 ≤ b.1) :=
  (sort_aux rows [] List.Pairwise.nil).1

theorem mem_sortRows (rows : List (ℚ × ℚ)) (s : ℚ × ℚ) : s ∈ sortRows rows ↔ s ∈ rows := by
  unfold sortRows
  simp [(sort_aux rows [] List.Pairwise.nil).2]

theorem sortRows_ne_nil {rows : List (ℚ × ℚ)} (h : rows ≠ []) : sortRows rows ≠ [] := by
  obtain ⟨r, hr⟩ := List.exists_mem_of_ne_nil rows h
  exact List.ne_nil_of_mem ((mem_sortRows rows r).mpr hr)

/-- Value on the straight line through two rows. -/
def onLine (a b : ℚ × ℚ) (x : ℚ) : ℚ := a.2 + (b.2 - a.2) * (x - a.1) / (b.1 - a.1)

/-- What a lookup inside the table means: the value of a row, or a point on the line between two rows with no row in
between. -/
def Between (rows : List (ℚ × ℚ)) (x y : ℚ) : Prop :=
  (x, y) ∈ rows ∨
  ∃ a ∈ rows, ∃ b ∈ rows, a.1 < x ∧ x < b.1 ∧ (∀ r ∈ rows, r.1 ≤ a.1 ∨ b.1 ≤ r.1) ∧ y = onLine a b x

theorem segment_between (a : ℚ × ℚ) (rest : List (ℚ × ℚ)) (x : ℚ) (h : (a :: rest).Pairwise (fun a b => a.1 ≤ b.1))
    (h1 : a.1 ≤ x) (h2 : x ≤ ((a :: rest).getLast (by simp)).1) : Between (a :: rest) x (segment a rest x) := by
  induction rest generalizing a with
  | nil =>
    left
    simp at h2
    have : x = a.1 := le_antisymm h2 h1
    simp [segment, this]
  | cons b rest ih =>
    obtain ⟨p1, p2⟩ := List.pairwise_cons.mp h
    unfold segment
    split
    · rename_i hlt
      split
      · rename_i he
        left; simp [he]
      · rename_i hne
        right
        have hax : a.1 < x := lt_of_le_of_ne h1 (Ne.symm hne)
        refine ⟨a, by simp, b, by simp, hax, hlt, ?_, ?_⟩
        · intro r hr
          rcases List.mem_cons.mp hr with rfl | hr
          · left; exact le_refl _
          · right
            rcases List.mem_cons.mp hr with rfl | hr
            · exact le_refl _
            · exact (List.pairwise_cons.mp p2).1 r hr
        · unfold onLine
          have : b.1 - a.1 ≠ 0 := by linarith
          field_simp
          ring
    · rename_i hge
      have hge := not_lt.mp hge
      have := ih b p2 hge (by simpa using h2)
      rcases this with hm | ⟨c, hc, d, hd, g1, g2, g3, g4⟩
      · left; exact List.mem_cons_of_mem _ hm
      · right
        refine ⟨c, List.mem_cons_of_mem _ hc, d, List.mem_cons_of_mem _ hd, g1, g2, ?_, g4⟩
        intro r hr
        rcases List.mem_cons.mp hr with rfl | hr
        · left; exact p1 c hc
        · exact g3 r hr

theorem sorted_first_last (a : ℚ × ℚ) (rest : List (ℚ × ℚ)) (h : (a :: rest).Pairwise (fun a b => a.1 ≤ b.1)) :
    ∀ r ∈ a :: rest, a.1 ≤ r.1 ∧ r.1 ≤ ((a :: rest).getLast (by simp)).1 := by
  induction rest generalizing a with
  | nil => intro r hr; simp at hr; subst hr; simp
  | cons b rest ih =>
    obtain ⟨p1, p2⟩ := List.pairwise_cons.mp h
    have hl : (a :: b :: rest).getLast (by simp) = (b :: rest).getLast (by simp) := by simp
    rw [hl]
    intro r hr
    rcases List.mem_cons.mp hr with rfl | hr
    · exact ⟨le_refl _, le_trans (p1 b (by simp)) ((ih b p2 b (by simp)).2)⟩
    · exact ⟨p1 r hr, (ih b p2 r hr).2⟩

/-- A lookup in a non-empty table gives the fill value below the smallest and above the largest variable, and lies on
the table otherwise. -/
theorem lookup_spec (rows : List (ℚ × ℚ)) (below above x : ℚ) (hne : rows ≠ []) :
    ∃ y, lookup rows below above x = .ok y ∧
      (((∀ r ∈ rows, x < r.1) ∧ y = below) ∨ ((∀ r ∈ rows, r.1 < x) ∧ y = above) ∨
        ((∃ r ∈ rows, r.1 ≤ x) ∧ (∃ r ∈ rows, x ≤ r.1) ∧ Between rows x y)) := by
  have hs := sortRows_sorted rows
  have hmem := mem_sortRows rows
  have hne' := sortRows_ne_nil hne
  unfold lookup
  cases hc : sortRows rows with
  | nil => exact absurd hc hne'
  | cons a rest =>
    rw [hc] at hs hmem
    have hfl := sorted_first_last a rest hs
    simp only
    split
    · rename_i h
      refine ⟨below, rfl, Or.inl ⟨fun r hr => ?_, rfl⟩⟩
      exact lt_of_lt_of_le h (hfl r ((hmem r).mpr hr)).1
    · rename_i h
      split
      · rename_i h'
        refine ⟨above, rfl, Or.inr (Or.inl ⟨fun r hr => ?_, rfl⟩)⟩
        exact lt_of_le_of_lt (hfl r ((hmem r).mpr hr)).2 h'
      · rename_i h'
        refine ⟨_, rfl, Or.inr (Or.inr ⟨⟨a, (hmem a).mp (by simp), not_lt.mp h⟩,
          ⟨_, (hmem _).mp (List.getLast_mem (by simp)), not_lt.mp h'⟩, ?_⟩)⟩
        rcases segment_between a rest x hs (not_lt.mp h) (not_lt.mp h') with hm | ⟨c, h1, d, h2, h3, h4, h5, h6⟩
        · exact Or.inl ((hmem _).mp hm)
        · exact Or.inr ⟨c, (hmem c).mp h1, d, (hmem d).mp h2, h3, h4, fun r hr => h5 r ((hmem r).mpr hr), h6⟩

/-- A value on the table is bounded by any bounds of the table values. -/
theorem between_bounds {rows : List (ℚ × ℚ)} {x y lo hi : ℚ} (h : Between rows x y)
    (hb : ∀ r ∈ rows, lo ≤ r.2 ∧ r.2 ≤ hi) : lo ≤ y ∧ y ≤ hi := by
  rcases h with hm | ⟨a, ha, b, hb', h1, h2, -, rfl⟩
  · exact hb _ hm
  · obtain ⟨a1, a2⟩ := hb a ha
    obtain ⟨b1, b2⟩ := hb b hb'
    have hd : 0 < b.1 - a.1 := by linarith
    have he : onLine a b x = (a.2 * (b.1 - x) + b.2 * (x - a.1)) / (b.1 - a.1) := by
      unfold onLine; field_simp; ring
    rw [he, le_div_iff₀ hd, div_le_iff₀ hd]
    constructor
    · nlinarith [mul_le_mul_of_nonneg_right a1 (by linarith : 0 ≤ b.1 - x),
        mul_le_mul_of_nonneg_right b1 (by linarith : 0 ≤ x - a.1)]
    · nlinarith [mul_le_mul_of_nonneg_right a2 (by linarith : 0 ≤ b.1 - x),
        mul_le_mul_of_nonneg_right b2 (by linarith : 0 ≤ x - a.1)]

theorem foldl_max_spec (xs : List ℚ) (x : ℚ) :
    xs.foldl max x ∈ x :: xs ∧ ∀ y ∈ x :: xs, y ≤ xs.foldl max x := by
  induction xs generalizing x with
  | nil => simp
  | cons a xs ih =>
    obtain ⟨h1, h2⟩ := ih (max x a)
    rw [List.foldl_cons]
    have hm := h2 (max x a) (by simp)
    refine ⟨?_, ?_⟩
    · rcases List.mem_cons.mp h1 with h | h
      · rw [h]; rcases max_choice x a with h' | h' <;> rw [h'] <;> simp
      · simp [h]
    · intro y hy
      rcases List.mem_cons.mp hy with rfl | hy
      · exact le_trans (le_max_left _ _) hm
      · rcases List.mem_cons.mp hy with rfl | hy
        · exact le_trans (le_max_right _ _) hm
        · exact h2 y (by simp [hy])

theorem foldl_min_spec (xs : List ℚ) (x : ℚ) :
    xs.foldl min x ∈ x :: xs ∧ ∀ y ∈ x :: xs, xs.foldl min x ≤ y := by
  induction xs generalizing x with
  | nil => simp
  | cons a xs ih =>
    obtain ⟨h1, h2⟩ := ih (min x a)
    rw [List.foldl_cons]
    have hm := h2 (min x a) (by simp)
    refine ⟨?_, ?_⟩
    · rcases List.mem_cons.mp h1 with h | h
      · rw [h]; rcases min_choice x a with h' | h' <;> rw [h'] <;> simp
      · simp [h]
    · intro y hy
      rcases List.mem_cons.mp hy with rfl | hy
      · exact le_trans hm (min_le_left _ _)
      · rcases List.mem_cons.mp hy with rfl | hy
        · exact le_trans hm (min_le_right _ _)
        · exact h2 y (by simp [hy])

theorem pyMax_spec {xs : List ℚ} {m : ℚ} (h : pyMax xs = .ok m) : m ∈ xs ∧ ∀ y ∈ xs, y ≤ m := by
  cases xs with
  | nil => simp [pyMax] at h
  | cons x xs => simp only [pyMax, Except.ok.injEq] at h; subst h; exact foldl_max_spec xs x

theorem pyMin_spec {xs : List ℚ} {m : ℚ} (h : pyMin xs = .ok m) : m ∈ xs ∧ ∀ y ∈ xs, m ≤ y := by
  cases xs with
  | nil => simp [pyMin] at h
  | cons x xs => simp only [pyMin, Except.ok.injEq] at h; subst h; exact foldl_min_spec xs x

end Verif.TableLemmas
