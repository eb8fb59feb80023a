import Verif.Model.Search
import Mathlib.Algebra.Order.Field.Basic
import Mathlib.Tactic.Linarith
import Mathlib.Tactic.Ring
import Mathlib.Tactic.FieldSimp
import Mathlib.Tactic.NormNum

/-!
# C49: the secant fallback never leaves the interval and is exact for straight lines
-/

namespace Verif.C49
open Verif.Time Verif.Search

/-! ## Lemmas -/

theorem limit_in (x lo hi : ℚ) (h : lo ≤ hi) : lo ≤ limit x lo hi ∧ limit x lo hi ≤ hi := by
  unfold limit
  exact ⟨le_max_right _ _, max_le (min_le_right _ _) h⟩

theorem limit_id (x lo hi : ℚ) (h1 : lo ≤ x) (h2 : x ≤ hi) : limit x lo hi = x := by
  unfold limit
  rw [min_eq_left h2, max_eq_left h1]

theorem loop_in (tol : ℚ) (f : ℚ → ℚ) (lo hi : ℚ) (h : lo ≤ hi) : ∀ (n : Nat) (x0 x1 : ℚ) (x2 : Option ℚ) (rel : ℚ)
    (r : Option ℚ), (∀ x, x2 = some x → lo ≤ x ∧ x ≤ hi) → secantLoop tol f lo hi n x0 x1 x2 rel = .ok r →
    (∀ x, r = some x → lo ≤ x ∧ x ≤ hi) ∧ (x2 ≠ none → r ≠ none) := by
  intro n
  induction n with
  | zero =>
    intro x0 x1 x2 rel r h2 hr
    unfold secantLoop at hr
    cases hr
    exact ⟨h2, id⟩
  | succ n ih =>
    intro x0 x1 x2 rel r h2 hr
    unfold secantLoop at hr
    split at hr
    · simp only at hr
      split at hr
      · cases hr
      · obtain ⟨g1, g2⟩ := ih _ _ _ _ _ (by
          intro x hx
          cases hx
          exact limit_in _ _ _ h) hr
        exact ⟨g1, fun _ => g2 (by simp)⟩
    · cases hr
      exact ⟨h2, id⟩

/-- Two functions equal on the interval give the same run: nothing outside the interval is evaluated. -/
theorem loop_congr (tol : ℚ) (f g : ℚ → ℚ) (lo hi : ℚ) (h : lo ≤ hi) (hfg : ∀ x, lo ≤ x → x ≤ hi → f x = g x) :
    ∀ (n : Nat) (x0 x1 : ℚ) (x2 : Option ℚ) (rel : ℚ), lo ≤ x0 → x0 ≤ hi → lo ≤ x1 → x1 ≤ hi →
    secantLoop tol f lo hi n x0 x1 x2 rel = secantLoop tol g lo hi n x0 x1 x2 rel := by
  intro n
  induction n with
  | zero => intros; rfl
  | succ n ih =>
    intro x0 x1 x2 rel a1 a2 b1 b2
    unfold secantLoop
    split
    · simp only [hfg x0 a1 a2, hfg x1 b1 b2]
      split
      · rfl
      · exact ih _ _ _ _ b1 b2 (limit_in _ _ _ h).1 (limit_in _ _ _ h).2
    · rfl

/-! ## Properties -/

/-- **Result in the interval.** Whatever the function: when the method returns, it returns a number (not NaN) between
the two starting points. -/
theorem C49_in_interval (tol : ℚ) (n : Nat) (f : ℚ → ℚ) (x0 x1 : ℚ) (ht : tol < 100) (r : Option ℚ)
    (hr : secant tol n f x0 x1 = .ok r) : ∃ x, r = some x ∧ min x0 x1 ≤ x ∧ x ≤ max x0 x1 := by
  have hle : min x0 x1 ≤ max x0 x1 := min_le_max
  unfold secant at hr
  unfold secantLoop at hr
  have h100 : |(100 : ℚ)| > tol := by rw [abs_of_pos (by norm_num)]; exact ht
  rw [if_pos h100] at hr
  simp only at hr
  split at hr
  · cases hr
  · obtain ⟨g1, g2⟩ := loop_in tol f _ _ hle n _ _ _ _ r (by
      intro x hx
      cases hx
      exact limit_in _ _ _ hle) hr
    cases r with
    | none => exact absurd rfl (g2 (by simp))
    | some x => exact ⟨x, rfl, g1 x rfl⟩

/-- **Only points of the interval are evaluated.** The outcome does not depend on the function outside. -/
theorem C49_local (tol : ℚ) (n : Nat) (f g : ℚ → ℚ) (x0 x1 : ℚ)
    (h : ∀ x, min x0 x1 ≤ x → x ≤ max x0 x1 → f x = g x) : secant tol n f x0 x1 = secant tol n g x0 x1 := by
  unfold secant
  exact loop_congr tol f g _ _ min_le_max h _ _ _ _ _ (min_le_left _ _) (le_max_left _ _) (min_le_right _ _)
    (le_max_right _ _)

/-- **Straight lines.** With slope `m ≠ 0` and root `r` in the interval the result is exactly `r`, whichever way the
interval is given, for any iteration limit of at least one. -/
theorem C49_line (tol : ℚ) (n : Nat) (m r x0 x1 : ℚ) (ht0 : 0 ≤ tol) (ht : tol < 100) (hm : m ≠ 0) (hx : x0 ≠ x1)
    (h1 : min x0 x1 ≤ r) (h2 : r ≤ max x0 x1) : secant tol (n + 1) (fun x => m * (x - r)) x0 x1 = .ok (some r) := by
  have h100 : |(100 : ℚ)| > tol := by rw [abs_of_pos (by norm_num)]; exact ht
  have hstep : ∀ a b : ℚ, a ≠ b → m * (b - r) - m * (a - r) ≠ 0 ∧
      limit (b - m * (b - r) * (b - a) / (m * (b - r) - m * (a - r))) (min x0 x1) (max x0 x1) = r := by
    intro a b hab
    have hba : b - a ≠ 0 := fun h => hab (by linarith)
    have e : m * (b - r) - m * (a - r) = m * (b - a) := by ring
    have hne : m * (b - a) ≠ 0 := mul_ne_zero hm hba
    refine ⟨by rw [e]; exact hne, ?_⟩
    have : b - m * (b - r) * (b - a) / (m * (b - r) - m * (a - r)) = r := by
      rw [e]
      field_simp
      ring
    rw [this]
    exact limit_id r _ _ h1 h2
  have hzero : ∀ (k : Nat) (a b : ℚ), secantLoop tol (fun x => m * (x - r)) (min x0 x1) (max x0 x1) k a b (some r) 0 =
      .ok (some r) := by
    intro k a b
    cases k with
    | zero => rfl
    | succ k =>
      unfold secantLoop
      rw [if_neg (by rw [abs_zero]; exact not_lt.mpr ht0)]
  unfold secant
  unfold secantLoop
  rw [if_pos h100]
  simp only
  obtain ⟨s1, s2⟩ := hstep x0 x1 hx
  rw [if_neg s1, s2]
  by_cases he : x1 = r
  · rw [if_pos he]
    exact hzero _ _ _
  · rw [if_neg he]
    unfold secantLoop
    split
    · simp only
      obtain ⟨t1, t2⟩ := hstep x1 r he
      rw [if_neg t1, t2, if_pos rfl]
      exact hzero _ _ _
    · rfl

/-- **Equal values at both ends** are an error. -/
theorem C49_flat (tol : ℚ) (n : Nat) (f : ℚ → ℚ) (x0 x1 : ℚ) (ht : tol < 100) (h : f x0 = f x1) :
    secant tol n f x0 x1 = .error .zeroDivision := by
  have h100 : |(100 : ℚ)| > tol := by rw [abs_of_pos (by norm_num)]; exact ht
  unfold secant secantLoop
  rw [if_pos h100]
  simp [h]

/-! ## Examples -/

example : secant (1 / 100000) 50 (fun x => 3 * (x - 2)) 0 10 = .ok (some 2) := by decide +kernel

/-- One allowed iteration on a parabola: two steps are made. -/
example : secant (1 / 100000) 1 (fun x => x * x - 4) 1 4 = .ok (some (13 / 7)) := by decide +kernel

end Verif.C49
