import Verif.Model.Time

/-! # C02 — Period overlap and intersection are set intersection -/

namespace Verif.C02
open Verif.Time

/-- Specification: the set of moments of a period. -/
def Moment (p : Period) (t : DateTime) : Prop := p.start ≤ t ∧ t < p.stop

/-- A period has at least one moment. -/
def NonEmpty (p : Period) : Prop := p.start < p.stop

/-- **C02, overlap.** Non-empty periods are reported as intersecting exactly when they share a moment. -/
theorem C02_intersects_iff_common_moment (p q : Period) (hp : NonEmpty p) (hq : NonEmpty q) :
    Period.intersects p q = true ↔ ∃ t, Moment p t ∧ Moment q t := by
  unfold Period.intersects Period.containsDate Moment NonEmpty at *
  simp only [Bool.or_eq_true, Bool.and_eq_true, decide_eq_true_eq]
  constructor
  · rintro (h | h)
    · exact ⟨p.start, by omega, h⟩
    · exact ⟨q.start, h, by omega⟩
  · rintro ⟨t, h1, h2⟩
    omega

/-- **C02, intersection.** The intersection of two non-empty periods contains exactly the common moments
and is non-empty when returned; nothing is returned exactly when there is no common moment. -/
theorem C02_intersection_is_set_intersection (p q : Period) (hp : NonEmpty p) (hq : NonEmpty q) :
    match Period.intersection p q with
    | some r => NonEmpty r ∧ ∀ t, Moment r t ↔ Moment p t ∧ Moment q t
    | none => ∀ t, ¬ (Moment p t ∧ Moment q t) := by
  have hi := C02_intersects_iff_common_moment p q hp hq
  unfold Period.intersection
  cases h : Period.intersects p q
  · simp only [Bool.not_false, if_true]
    intro t ht
    simp [h] at hi
    exact hi t ht.1 ht.2
  · simp only [Bool.not_true, Bool.false_eq_true, if_false]
    obtain ⟨t0, h1, h2⟩ := hi.mp h
    unfold Moment NonEmpty at *
    constructor
    · simp only; omega
    · intro t; simp only; omega

/-- **C02, symmetry** (for every pair of periods, empty ones included). -/
theorem C02_symmetric (p q : Period) :
    Period.intersects p q = Period.intersects q p ∧ Period.intersection p q = Period.intersection q p := by
  have h : Period.intersects p q = Period.intersects q p := by
    unfold Period.intersects; exact Bool.or_comm _ _
  refine ⟨h, ?_⟩
  unfold Period.intersection
  rw [h, Int.max_comm, Int.min_comm]

/-- **C02, containment.** A period is contained in another exactly when it is non-empty and all its
moments are moments of the other; a date is contained exactly when it is a moment of the period. -/
theorem C02_contains (p q : Period) :
    (Period.containsPeriod p q = true ↔ NonEmpty q ∧ ∀ t, Moment q t → Moment p t) ∧
    (∀ t, Period.containsDate p t = true ↔ Moment p t) := by
  unfold Period.containsPeriod Period.containsDate Moment NonEmpty
  simp only [Bool.and_eq_true, decide_eq_true_eq]
  refine ⟨⟨?_, ?_⟩, fun _ => trivial⟩
  · intro h; refine ⟨h.1.2, ?_⟩; intro t; omega
  · rintro ⟨h1, h2⟩
    have a := h2 q.start (by omega)
    have b := h2 (q.stop - 1) (by omega)
    omega

/-- The order of periods used for sorting temporal models is a total order. -/
theorem C02_order_total (p q r : Period) :
    (Period.le p q = true ∨ Period.le q p = true) ∧
    (Period.le p q = true → Period.le q p = true → p = q) ∧
    (Period.le p q = true → Period.le q r = true → Period.le p r = true) := by
  obtain ⟨ps, pe⟩ := p
  obtain ⟨qs, qe⟩ := q
  obtain ⟨rs, re⟩ := r
  simp only [Period.le, Bool.or_eq_true, Bool.and_eq_true, decide_eq_true_eq, Period.mk.injEq]
  omega

/-- Non-vacuity: two overlapping non-empty periods; two touching periods do not intersect. -/
example : NonEmpty ⟨1, 5⟩ ∧ NonEmpty ⟨3, 9⟩ ∧ Period.intersection ⟨1, 5⟩ ⟨3, 9⟩ = some ⟨3, 5⟩ ∧
    Period.intersection ⟨1, 5⟩ ⟨5, 9⟩ = none := by
  refine ⟨by unfold NonEmpty; decide, by unfold NonEmpty; decide, by decide, by decide⟩

end Verif.C02
