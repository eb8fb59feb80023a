import Verif.Model.Solver
import Mathlib.Tactic.Linarith
import Mathlib.Tactic.NormNum

/-!
C39: comparisons with a tolerance are mutually exclusive and exhaustive.

The specification compares with the edges of the tolerance band.
-/

namespace Verif.C39

open Verif.Time Verif.Solver

/-- The comparison says yes. -/
def Yes (r : Except Err Cmp) : Prop := r = .ok (.bool true)

/-- The comparison says no. -/
def No (r : Except Err Cmp) : Prop := r = .ok (.bool false)

theorem close_fin (v o t : ℚ) (ht : 0 ≤ t) :
    FloatConstraint.isClose ⟨.fin v, .fin t⟩ (some (.fin o)) = .ok (.bool (decide (v - t ≤ o ∧ o ≤ v + t))) := by
  have h0 : ¬ t < 0 := not_lt.2 ht
  simp only [FloatConstraint.isClose, isclose, F.lt, h0, decide_false, Bool.false_eq_true, if_false, Bind.bind,
    Except.bind, Pure.pure, Except.pure]
  congr 2
  rw [Bool.eq_iff_iff]
  simp only [Bool.or_eq_true, decide_eq_true_eq, abs_le]
  constructor
  · rintro (rfl | ⟨h1, h2⟩)
    · exact ⟨by linarith, by linarith⟩
    · exact ⟨by linarith, by linarith⟩
  · rintro ⟨h1, h2⟩
    exact .inr ⟨by linarith, by linarith⟩

/-- **C39.** For finite numbers: equal means within the tolerance band, less means above the band, greater means below
it; the other comparisons are the corresponding combinations. -/
theorem C39_meaning (v o t : ℚ) (ht : 0 ≤ t) :
    let c : FloatConstraint := ⟨.fin v, .fin t⟩
    (c.eq (some (.fin o)) = .ok (.bool (decide (v - t ≤ o ∧ o ≤ v + t)))) ∧
    (c.ne (some (.fin o)) = .ok (.bool (decide (o < v - t ∨ v + t < o)))) ∧
    (c.lt (some (.fin o)) = .ok (.bool (decide (v + t < o)))) ∧
    (c.gt (some (.fin o)) = .ok (.bool (decide (o < v - t)))) ∧
    (c.le (some (.fin o)) = .ok (.bool (decide (v - t ≤ o)))) ∧
    (c.ge (some (.fin o)) = .ok (.bool (decide (o ≤ v + t)))) := by
  have hc := close_fin v o t ht
  have hlt : FloatConstraint.lt ⟨.fin v, .fin t⟩ (some (.fin o)) = .ok (.bool (decide (v + t < o))) := by
    simp only [FloatConstraint.lt, hc, Bind.bind, Except.bind, Pure.pure, Except.pure, Cmp.truthy, F.lt]
    congr 2
    rw [Bool.eq_iff_iff]
    simp only [Bool.and_eq_true, Bool.not_eq_true', decide_eq_false_iff_not, decide_eq_true_eq, not_and, not_le]
    constructor
    · rintro ⟨h1, h2⟩
      exact h1 (by linarith)
    · intro h
      exact ⟨fun _ => h, by linarith⟩
  have hgt : FloatConstraint.gt ⟨.fin v, .fin t⟩ (some (.fin o)) = .ok (.bool (decide (o < v - t))) := by
    simp only [FloatConstraint.gt, hc, Bind.bind, Except.bind, Pure.pure, Except.pure, Cmp.truthy, F.lt]
    congr 2
    rw [Bool.eq_iff_iff]
    simp only [Bool.and_eq_true, Bool.not_eq_true', decide_eq_false_iff_not, decide_eq_true_eq, not_and, not_le]
    constructor
    · rintro ⟨h1, h2⟩
      by_contra h
      have := h1 (by linarith)
      linarith
    · intro h
      exact ⟨fun h' => by linarith, by linarith⟩
  refine ⟨hc, ?_, hlt, hgt, ?_, ?_⟩
  · simp only [FloatConstraint.ne, hc, Bind.bind, Except.bind, Pure.pure, Except.pure, Cmp.truthy]
    congr 2
    rw [Bool.eq_iff_iff]
    simp only [Bool.not_eq_true', decide_eq_false_iff_not, decide_eq_true_eq, not_and_or, not_le]
  · simp only [FloatConstraint.le, hlt, hc, orElse, Cmp.truthy, Bind.bind, Except.bind]
    by_cases h : v + t < o
    · have : v - t ≤ o := by linarith
      simp [h, this]
    · have h' : o ≤ v + t := not_lt.1 h
      simp [h, h']
  · simp only [FloatConstraint.ge, hgt, hc, orElse, Cmp.truthy, Bind.bind, Except.bind]
    by_cases h : o < v - t
    · have : o ≤ v + t := by linarith
      simp [h, this]
    · have h' : v - t ≤ o := not_lt.1 h
      simp [h, h']

/-- **C39.** For all numbers except NaN, including the infinities, and every tolerance that is not negative: exactly one
of less, equal and greater holds; `<=`, `>=`, `!=` are their combinations. -/
theorem C39_trichotomy (c : FloatConstraint) (o : F) (hv : c.value ≠ .nan) (ho : o ≠ .nan)
    (ht : F.lt c.absTol (.fin 0) = false) :
    ((Yes (c.lt (some o)) ∧ No (c.eq (some o)) ∧ No (c.gt (some o))) ∨
      (No (c.lt (some o)) ∧ Yes (c.eq (some o)) ∧ No (c.gt (some o))) ∨
      (No (c.lt (some o)) ∧ No (c.eq (some o)) ∧ Yes (c.gt (some o)))) ∧
    (Yes (c.le (some o)) ↔ Yes (c.lt (some o)) ∨ Yes (c.eq (some o))) ∧
    (Yes (c.ge (some o)) ↔ Yes (c.gt (some o)) ∨ Yes (c.eq (some o))) ∧
    (Yes (c.ne (some o)) ↔ No (c.eq (some o))) := by
  obtain ⟨v, t⟩ := c
  simp only at hv ht
  -- the comparison is decided by closeness and the order of floats
  have key : ∃ b, FloatConstraint.isClose ⟨v, t⟩ (some o) = .ok (.bool b) ∧
      (b = false → (F.lt v o = true ∧ F.lt o v = false) ∨ (F.lt v o = false ∧ F.lt o v = true)) := by
    have order : ∀ a b : ℚ, a ≠ b → (decide (a < b) = true ∧ decide (b < a) = false) ∨
        (decide (a < b) = false ∧ decide (b < a) = true) := by
      intro a b hab
      rcases lt_or_gt_of_ne hab with h | h
      · exact .inl ⟨by simpa using h, by simpa using le_of_lt h⟩
      · exact .inr ⟨by simpa using le_of_lt h, by simpa using h⟩
    simp only [FloatConstraint.isClose, isclose, ht, Bool.false_eq_true, if_false]
    cases v with
    | nan => exact absurd rfl hv
    | ninf => cases o <;> simp_all [F.lt, Bind.bind, Except.bind, Pure.pure, Except.pure]
    | pinf => cases o <;> simp_all [F.lt, Bind.bind, Except.bind, Pure.pure, Except.pure]
    | fin x =>
      cases o with
      | nan => exact absurd rfl ho
      | ninf => exact ⟨false, rfl, fun _ => .inr ⟨rfl, rfl⟩⟩
      | pinf => exact ⟨false, rfl, fun _ => .inl ⟨rfl, rfl⟩⟩
      | fin y =>
        cases t with
        | ninf => simp [F.lt] at ht
        | pinf => exact ⟨true, rfl, by simp⟩
        | nan =>
          refine ⟨decide (x = y), rfl, ?_⟩
          intro h
          exact order x y (by simpa using h)
        | fin t =>
          refine ⟨_, rfl, ?_⟩
          intro h
          simp only [Bool.or_eq_false_iff, decide_eq_false_iff_not] at h
          exact order x y h.1
  obtain ⟨b, hb, hord⟩ := key
  simp only [Yes, No, FloatConstraint.eq, FloatConstraint.ne, FloatConstraint.lt, FloatConstraint.gt,
    FloatConstraint.le, FloatConstraint.ge, hb, Bind.bind, Except.bind, Pure.pure, Except.pure, Cmp.truthy, orElse]
  cases b with
  | true => simp
  | false =>
    rcases hord rfl with ⟨h1, h2⟩ | ⟨h1, h2⟩ <;> simp [h1, h2]

/-- **C39.** NaN is neither less than, equal to nor greater than anything, and everything is different from it. -/
theorem C39_nan (c : FloatConstraint) (o : F) (ht : F.lt c.absTol (.fin 0) = false) (h : c.value = .nan ∨ o = .nan) :
    No (c.lt (some o)) ∧ No (c.eq (some o)) ∧ No (c.gt (some o)) ∧ No (c.le (some o)) ∧ No (c.ge (some o)) ∧
    Yes (c.ne (some o)) := by
  obtain ⟨v, t⟩ := c
  simp only at ht h
  have hb : FloatConstraint.isClose ⟨v, t⟩ (some o) = .ok (.bool false) := by
    simp only [FloatConstraint.isClose, isclose, ht, Bool.false_eq_true, if_false]
    rcases h with rfl | rfl
    · rfl
    · cases v <;> rfl
  have h1 : F.lt v o = false := by
    rcases h with rfl | rfl
    · cases o <;> rfl
    · cases v <;> rfl
  have h2 : F.lt o v = false := by
    rcases h with rfl | rfl
    · cases o <;> rfl
    · cases v <;> rfl
  simp [Yes, No, FloatConstraint.eq, FloatConstraint.ne, FloatConstraint.lt, FloatConstraint.gt,
    FloatConstraint.le, FloatConstraint.ge, hb, Bind.bind, Except.bind, Pure.pure, Except.pure, Cmp.truthy, orElse, h1, h2]

/-- **C39.** A negative tolerance makes every comparison with a number a `ValueError`. -/
theorem C39_negative_tolerance (c : FloatConstraint) (o : F) (ht : F.lt c.absTol (.fin 0) = true) :
    c.eq (some o) = .error .valueError ∧ c.ne (some o) = .error .valueError ∧ c.lt (some o) = .error .valueError ∧
    c.gt (some o) = .error .valueError ∧ c.le (some o) = .error .valueError ∧ c.ge (some o) = .error .valueError := by
  have hb : c.isClose (some o) = .error .valueError := by
    simp [FloatConstraint.isClose, isclose, ht, Bind.bind, Except.bind]
  simp [FloatConstraint.eq, FloatConstraint.ne, FloatConstraint.lt, FloatConstraint.gt,
    FloatConstraint.le, FloatConstraint.ge, hb, Bind.bind, Except.bind]

/-- **C39.** An object that is not a number: every comparison is left to the other object, except `!=`, which answers no
(so it is neither equal nor different). -/
theorem C39_not_a_number (c : FloatConstraint) :
    c.eq none = .ok .notImplemented ∧ c.lt none = .ok .notImplemented ∧ c.gt none = .ok .notImplemented ∧
    c.le none = .ok .notImplemented ∧ c.ge none = .ok .notImplemented ∧ No (c.ne none) := ⟨rfl, rfl, rfl, rfl, rfl, rfl⟩

/-- Equality up to a tolerance is not transitive: neighbouring values of a chain are equal, its ends are not. -/
theorem C39_not_transitive (t : ℚ) (ht : 0 < t) (v : ℚ) :
    Yes (FloatConstraint.eq ⟨.fin v, .fin t⟩ (some (.fin (v + t)))) ∧
    Yes (FloatConstraint.eq ⟨.fin (v + t), .fin t⟩ (some (.fin (v + t + t)))) ∧
    No (FloatConstraint.eq ⟨.fin v, .fin t⟩ (some (.fin (v + t + t)))) := by
  refine ⟨?_, ?_, ?_⟩
  · have := (C39_meaning v (v + t) t ht.le).1
    rw [Yes, this]
    congr 2
    exact decide_eq_true ⟨by linarith, by linarith⟩
  · have := (C39_meaning (v + t) (v + t + t) t ht.le).1
    rw [Yes, this]
    congr 2
    exact decide_eq_true ⟨by linarith, by linarith⟩
  · have := (C39_meaning v (v + t + t) t ht.le).1
    rw [No, this]
    congr 2
    exact decide_eq_false fun h => by linarith [h.2]

/-! ### Non-vacuity -/

example : Yes (FloatConstraint.lt ⟨.fin 50, .fin (1/1000)⟩ (some (.fin 51))) ∧
    Yes (FloatConstraint.le ⟨.fin 50, .fin (1/1000)⟩ (some (.fin (49.9995)))) ∧
    No (FloatConstraint.lt ⟨.fin 50, .fin (1/1000)⟩ (some (.fin (50.0005)))) := by
  refine ⟨?_, ?_, ?_⟩ <;> simp only [Yes, No] <;> decide +kernel

end Verif.C39
