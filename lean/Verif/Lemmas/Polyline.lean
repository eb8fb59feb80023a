import Mathlib.Tactic.Linarith
import Mathlib.Tactic.Ring
import Mathlib.Tactic.FieldSimp
import Mathlib.Algebra.Order.Field.Basic
import Verif.Lemmas.Table
import Verif.Model.Chart

/-! # Helper lemmas about interpolation along a polyline -/

namespace Verif.Polyline
open Verif.Time Verif.Table Verif.TableLemmas Verif.Charts

/-- No two rows share the variable. -/
def Functional (rows : List (ℚ × ℚ)) : Prop := ∀ r ∈ rows, ∀ s ∈ rows, r.1 = s.1 → r = s

/-- Values do not increase with the variable. -/
def Falling (rows : List (ℚ × ℚ)) : Prop := ∀ r ∈ rows, ∀ s ∈ rows, r.1 < s.1 → s.2 ≤ r.2

/-- Values decrease strictly with the variable. -/
def Dropping (rows : List (ℚ × ℚ)) : Prop := ∀ r ∈ rows, ∀ s ∈ rows, r.1 < s.1 → s.2 < r.2

theorem interp_spec (rows : List (ℚ × ℚ)) (below above x : ℚ) (hne : rows ≠ []) :
    ((∀ r ∈ rows, x < r.1) ∧ interp rows below above x = below) ∨
    ((∀ r ∈ rows, r.1 < x) ∧ interp rows below above x = above) ∨
    ((∃ r ∈ rows, r.1 ≤ x) ∧ (∃ r ∈ rows, x ≤ r.1) ∧ Between rows x (interp rows below above x)) := by
  obtain ⟨y, hy, h⟩ := lookup_spec rows below above x hne
  have : interp rows below above x = y := by unfold interp; rw [hy]
  rw [this]; exact h

theorem interp_below {rows : List (ℚ × ℚ)} {below above x : ℚ} (hne : rows ≠ []) (h : ∀ r ∈ rows, x < r.1) :
    interp rows below above x = below := by
  obtain ⟨r, hr⟩ := List.exists_mem_of_ne_nil rows hne
  rcases interp_spec rows below above x hne with ⟨-, h'⟩ | ⟨h', -⟩ | ⟨⟨s, hs, hsx⟩, -⟩
  · exact h'
  · have := h r hr; have := h' r hr; linarith
  · have := h s hs; linarith

theorem interp_above {rows : List (ℚ × ℚ)} {below above x : ℚ} (hne : rows ≠ []) (h : ∀ r ∈ rows, r.1 < x) :
    interp rows below above x = above := by
  obtain ⟨r, hr⟩ := List.exists_mem_of_ne_nil rows hne
  rcases interp_spec rows below above x hne with ⟨h', -⟩ | ⟨-, h'⟩ | ⟨-, ⟨s, hs, hsx⟩, -⟩
  · have := h r hr; have := h' r hr; linarith
  · exact h'
  · have := h s hs; linarith

theorem interp_inside {rows : List (ℚ × ℚ)} {below above x : ℚ} (h1 : ∃ r ∈ rows, r.1 ≤ x) (h2 : ∃ r ∈ rows, x ≤ r.1) :
    Between rows x (interp rows below above x) := by
  obtain ⟨r, hr, hrx⟩ := h1
  obtain ⟨s, hs, hsx⟩ := h2
  rcases interp_spec rows below above x (List.ne_nil_of_mem hr) with ⟨h', -⟩ | ⟨h', -⟩ | ⟨-, -, h'⟩
  · have := h' r hr; linarith
  · have := h' s hs; linarith
  · exact h'

/-- The straight line meets its end points. -/
theorem onLine_left {a b : ℚ × ℚ} : onLine a b a.1 = a.2 := by unfold onLine; simp

theorem onLine_right {a b : ℚ × ℚ} (h : a.1 < b.1) : onLine a b b.1 = b.2 := by
  unfold onLine
  have : b.1 - a.1 ≠ 0 := by linarith
  field_simp; ring

theorem between_unique {rows : List (ℚ × ℚ)} (hf : Functional rows) {x y z : ℚ} (h1 : Between rows x y)
    (h2 : Between rows x z) : y = z := by
  rcases h1 with m1 | ⟨a, ha, b, hb, a1, a2, a3, rfl⟩
  · rcases h2 with m2 | ⟨c, hc, d, hd, c1, c2, c3, rfl⟩
    · have := hf _ m1 _ m2 rfl
      exact (Prod.mk.inj this).2
    · rcases c3 _ m1 with h | h <;> simp only at h <;> linarith
  · rcases h2 with m2 | ⟨c, hc, d, hd, c1, c2, c3, rfl⟩
    · rcases a3 _ m2 with h | h <;> simp only at h <;> linarith
    · have e1 : a = c := hf _ ha _ hc (by
        rcases a3 c hc with h | h
        · rcases c3 a ha with h' | h'
          · linarith
          · linarith
        · linarith)
      have e2 : b = d := hf _ hb _ hd (by
        rcases a3 d hd with h | h
        · linarith
        · rcases c3 b hb with h' | h'
          · linarith
          · linarith)
      rw [e1, e2]

theorem between_range {rows : List (ℚ × ℚ)} {x y : ℚ} (h : Between rows x y) :
    (∃ r ∈ rows, r.1 ≤ x) ∧ ∃ r ∈ rows, x ≤ r.1 := by
  rcases h with m | ⟨a, ha, b, hb, a1, a2, -, -⟩
  · exact ⟨⟨_, m, le_refl _⟩, ⟨_, m, le_refl _⟩⟩
  · exact ⟨⟨a, ha, le_of_lt a1⟩, ⟨b, hb, le_of_lt a2⟩⟩

/-- Interpolation gives the unique value on the polyline. -/
theorem interp_eq {rows : List (ℚ × ℚ)} (hf : Functional rows) {below above x y : ℚ} (h : Between rows x y) :
    interp rows below above x = y := by
  obtain ⟨h1, h2⟩ := between_range h
  exact between_unique hf (interp_inside h1 h2) h

theorem interp_at {rows : List (ℚ × ℚ)} (hf : Functional rows) {below above : ℚ} {r : ℚ × ℚ} (h : r ∈ rows) :
    interp rows below above r.1 = r.2 := interp_eq hf (Or.inl h)

/-- Inside a segment a falling line stays between its end points. -/
theorem onLine_bounds {a b : ℚ × ℚ} {x : ℚ} (h1 : a.1 ≤ x) (h2 : x ≤ b.1) (hab : a.1 < b.1) (hv : b.2 ≤ a.2) :
    b.2 ≤ onLine a b x ∧ onLine a b x ≤ a.2 := by
  have hd : 0 < b.1 - a.1 := by linarith
  have he : onLine a b x = (a.2 * (b.1 - x) + b.2 * (x - a.1)) / (b.1 - a.1) := by
    unfold onLine; field_simp; ring
  rw [he, le_div_iff₀ hd, div_le_iff₀ hd]
  constructor
  · nlinarith [mul_le_mul_of_nonneg_right hv (by linarith : 0 ≤ b.1 - x)]
  · nlinarith [mul_le_mul_of_nonneg_right hv (by linarith : 0 ≤ x - a.1)]

theorem onLine_strict {a b : ℚ × ℚ} {x : ℚ} (h1 : a.1 < x) (h2 : x < b.1) (hv : b.2 < a.2) :
    b.2 < onLine a b x ∧ onLine a b x < a.2 := by
  have hd : 0 < b.1 - a.1 := by linarith
  have he : onLine a b x = (a.2 * (b.1 - x) + b.2 * (x - a.1)) / (b.1 - a.1) := by
    unfold onLine; field_simp; ring
  rw [he, lt_div_iff₀ hd, div_lt_iff₀ hd]
  constructor
  · nlinarith [mul_lt_mul_of_pos_right hv (by linarith : 0 < b.1 - x)]
  · nlinarith [mul_lt_mul_of_pos_right hv (by linarith : 0 < x - a.1)]

/-- A point of a falling polyline, sandwiched between rows. -/
theorem between_sandwich {rows : List (ℚ × ℚ)} (hfall : Falling rows) {x y : ℚ} (h : Between rows x y) :
    ∃ a ∈ rows, ∃ b ∈ rows, a.1 ≤ x ∧ x ≤ b.1 ∧ (∀ r ∈ rows, r.1 ≤ a.1 ∨ b.1 ≤ r.1) ∧ b.2 ≤ y ∧ y ≤ a.2 := by
  rcases h with m | ⟨a, ha, b, hb, a1, a2, a3, rfl⟩
  · exact ⟨_, m, _, m, le_refl _, le_refl _, fun r _ => le_total _ _, le_refl _, le_refl _⟩
  · have hab : a.1 < b.1 := lt_trans a1 a2
    have := onLine_bounds (le_of_lt a1) (le_of_lt a2) hab (hfall a ha b hb hab)
    exact ⟨a, ha, b, hb, le_of_lt a1, le_of_lt a2, a3, this.1, this.2⟩

theorem between_antitone {rows : List (ℚ × ℚ)} (hf : Functional rows) (hfall : Falling rows) {x y x' y' : ℚ}
    (h : Between rows x y) (h' : Between rows x' y') (hx : x ≤ x') : y' ≤ y := by
  have weak : ∀ r ∈ rows, ∀ s ∈ rows, r.1 ≤ s.1 → s.2 ≤ r.2 := by
    intro r hr s hs hrs
    rcases lt_or_eq_of_le hrs with hlt | heq
    · exact hfall r hr s hs hlt
    · rw [hf r hr s hs heq]
  rcases h with m | ⟨a, ha, b, hb, a1, a2, a3, rfl⟩
  · obtain ⟨c, hc, d, hd, c1, c2, c3, c4, c5⟩ := between_sandwich hfall h'
    rcases c3 _ m with hl | hr
    · exact le_trans c5 (weak _ m c hc hl)
    · simp only at hr
      have e : x = x' := le_antisymm hx (le_trans c2 hr)
      subst e
      exact le_of_eq (between_unique hf h' (Or.inl m))
  · rcases h' with m' | ⟨c, hc, d, hd, c1, c2, c3, rfl⟩
    · have hab : a.1 < b.1 := lt_trans a1 a2
      have hb1 := (onLine_bounds (le_of_lt a1) (le_of_lt a2) hab (hfall a ha b hb hab)).1
      rcases a3 _ m' with hl | hr
      · simp only at hl; linarith
      · exact le_trans (weak b hb _ m' hr) hb1
    · have hab : a.1 < b.1 := lt_trans a1 a2
      have hcd : c.1 < d.1 := lt_trans c1 c2
      have hB := (onLine_bounds (le_of_lt a1) (le_of_lt a2) hab (hfall a ha b hb hab)).1
      have hC := (onLine_bounds (le_of_lt c1) (le_of_lt c2) hcd (hfall c hc d hd hcd)).2
      rcases a3 c hc with hl | hr
      · rcases c3 a ha with hl' | hr'
        · have e1 : a = c := hf _ ha _ hc (le_antisymm hl' hl)
          have e2 : b = d := hf _ hb _ hd (by
            rcases a3 d hd with h | h
            · linarith
            · rcases c3 b hb with h' | h'
              · linarith
              · linarith)
          subst e1 e2
          have hv := hfall a ha b hb hab
          have hd0 : 0 < b.1 - a.1 := by linarith
          unfold onLine
          have : (b.2 - a.2) * (x' - a.1) / (b.1 - a.1) ≤ (b.2 - a.2) * (x - a.1) / (b.1 - a.1) := by
            apply div_le_div_of_nonneg_right _ (le_of_lt hd0)
            nlinarith
          linarith
        · linarith
      · exact le_trans hC (le_trans (weak b hb c hc hr) hB)

theorem between_swap {rows : List (ℚ × ℚ)} (hf : Functional rows) (hd : Dropping rows) {x y : ℚ}
    (h : Between rows x y) : Between (rows.map fun r => (r.2, r.1)) y x := by
  rcases h with m | ⟨a, ha, b, hb, a1, a2, a3, rfl⟩
  · left; exact List.mem_map.mpr ⟨_, m, rfl⟩
  · have hab : a.1 < b.1 := lt_trans a1 a2
    have hv := hd a ha b hb hab
    obtain ⟨s1, s2⟩ := onLine_strict a1 a2 hv
    right
    refine ⟨(b.2, b.1), List.mem_map.mpr ⟨b, hb, rfl⟩, (a.2, a.1), List.mem_map.mpr ⟨a, ha, rfl⟩, s1, s2, ?_, ?_⟩
    · intro r hr
      obtain ⟨q, hq, rfl⟩ := List.mem_map.mp hr
      simp only
      rcases a3 q hq with h | h
      · right
        rcases lt_or_eq_of_le h with hlt | heq
        · exact le_of_lt (hd q hq a ha hlt)
        · rw [hf q hq a ha heq]
      · left
        rcases lt_or_eq_of_le h with hlt | heq
        · exact le_of_lt (hd b hb q hq hlt)
        · rw [hf b hb q hq heq]
    · unfold onLine
      have h1 : b.1 - a.1 ≠ 0 := by linarith
      have h2 : a.2 - b.2 ≠ 0 := by linarith
      simp only
      field_simp
      ring

theorem functional_swap {rows : List (ℚ × ℚ)} (hd : Dropping rows) (hf : Functional rows) :
    Functional (rows.map fun r => (r.2, r.1)) := by
  intro r hr s hs h
  obtain ⟨q, hq, rfl⟩ := List.mem_map.mp hr
  obtain ⟨p, hp, rfl⟩ := List.mem_map.mp hs
  simp only at h
  have : q.1 = p.1 := by
    rcases lt_trichotomy q.1 p.1 with h' | h' | h'
    · have := hd q hq p hp h'; linarith
    · exact h'
    · have := hd p hp q hq h'; linarith
  rw [hf q hq p hp this]

/-- Cutting a polyline at one of its points leaves the rest of it unchanged. -/
theorem between_cut {rows : List (ℚ × ℚ)} (hf : Functional rows) {m y0 : ℚ} (h0 : Between rows m y0) {x y : ℚ}
    (h : Between ((m, y0) :: rows.filter (fun r => decide (m < r.1))) x y) : Between rows x y := by
  rcases h with hm | ⟨a, ha, b, hb, a1, a2, a3, rfl⟩
  · rcases List.mem_cons.mp hm with he | hm
    · obtain ⟨rfl, rfl⟩ := Prod.mk.inj he
      exact h0
    · exact Or.inl (List.mem_filter.mp hm).1
  · have hbr : b ∈ rows ∧ m < b.1 := by
      rcases List.mem_cons.mp hb with rfl | hb
      · exfalso
        rcases List.mem_cons.mp ha with rfl | ha
        · simp only at a1 a2; linarith
        · have := (List.mem_filter.mp ha).2
          simp only [decide_eq_true_eq] at this
          simp only at a2
          linarith
      · have := List.mem_filter.mp hb
        exact ⟨this.1, by simpa using this.2⟩
    rcases List.mem_cons.mp ha with rfl | ha
    · simp only at a1 a3 ⊢
      rcases h0 with hm | ⟨c, hc, d, hd, c1, c2, c3, rfl⟩
      · right
        refine ⟨(m, y0), hm, b, hbr.1, a1, a2, fun r hr => ?_, rfl⟩
        by_cases h : m < r.1
        · right
          rcases a3 r (List.mem_cons_of_mem _ (List.mem_filter.mpr ⟨hr, by simpa using h⟩)) with h' | h'
          · linarith
          · exact h'
        · left; exact not_lt.mp h
      · have e : d = b := by
          apply hf d hd b hbr.1
          rcases c3 b hbr.1 with h | h
          · linarith [hbr.2]
          · rcases a3 d (List.mem_cons_of_mem _ (List.mem_filter.mpr ⟨hd, by simpa using c2⟩)) with h' | h'
            · linarith
            · linarith
        subst e
        right
        refine ⟨c, hc, d, hd, lt_trans c1 a1, a2, c3, ?_⟩
        unfold onLine
        have h1 : d.1 - c.1 ≠ 0 := by linarith
        have h2 : d.1 - m ≠ 0 := by linarith
        simp only
        field_simp
        ring
    · right
      have har := List.mem_filter.mp ha
      have hma : m < a.1 := by simpa using har.2
      refine ⟨a, har.1, b, hbr.1, a1, a2, fun r hr => ?_, rfl⟩
      by_cases h : m < r.1
      · exact a3 r (List.mem_cons_of_mem _ (List.mem_filter.mpr ⟨hr, by simpa using h⟩))
      · left; linarith [not_lt.mp h]

/-- Interpolation within bounds of the values and of the fill values. -/
theorem interp_bounds {rows : List (ℚ × ℚ)} {below above x lo hi : ℚ} (hne : rows ≠ [])
    (hb : ∀ r ∈ rows, lo ≤ r.2 ∧ r.2 ≤ hi) (h1 : lo ≤ below ∧ below ≤ hi) (h2 : lo ≤ above ∧ above ≤ hi) :
    lo ≤ interp rows below above x ∧ interp rows below above x ≤ hi := by
  rcases interp_spec rows below above x hne with ⟨-, h⟩ | ⟨-, h⟩ | ⟨-, -, h⟩
  · rw [h]; exact h1
  · rw [h]; exact h2
  · exact between_bounds h hb

end Verif.Polyline
