import Verif.Model.Time

/-! # C01 — Periods built from dates partition the timeline -/

namespace Verif.C01
open Verif.Time

/-- Specification: the moment `t` lies in the half-open interval of `p`. -/
def Covers (p : Period) (t : DateTime) : Prop := p.start ≤ t ∧ t < p.stop

instance (p : Period) (t : DateTime) : Decidable (Covers p t) :=
  inferInstanceAs (Decidable (_ ∧ _))

/-- Specification: number of entries of `ps` that cover `t`. -/
def coverCount (ps : List Period) (t : DateTime) : Nat :=
  (ps.filter (fun p => decide (Covers p t))).length

/-- Specification: the part of the timeline that periods built from dates running from `first` to `last`
are meant to cover. -/
def Timeline (first last : DateTime) (before after : Bool) (t : DateTime) : Prop :=
  (before = true ∧ dtMin ≤ t ∧ t < first) ∨ (first ≤ t ∧ t < last) ∨ (after = true ∧ last ≤ t ∧ t < dtMax)

/-- Neighbouring periods share their boundary. -/
def Consecutive : List Period → Prop
  | [] => True
  | [_] => True
  | p :: q :: rest => p.stop = q.start ∧ Consecutive (q :: rest)

theorem head_le_getLast (a : DateTime) (l : List DateTime) (h : (a :: l).Pairwise (· < ·)) :
    a ≤ (a :: l).getLast (by simp) := by
  induction l generalizing a with
  | nil => simp
  | cons b l ih =>
    have hb := ih b h.of_cons
    have : a < b := List.rel_of_pairwise_cons h (by simp)
    rw [List.getLast_cons (by simp)]
    omega

theorem coverCount_cons (p : Period) (ps : List Period) (t : DateTime) :
    coverCount (p :: ps) t = (if Covers p t then 1 else 0) + coverCount ps t := by
  unfold coverCount
  by_cases h : Covers p t <;> simp [h]; omega

theorem coverCount_append (ps qs : List Period) (t : DateTime) :
    coverCount (ps ++ qs) t = coverCount ps t + coverCount qs t := by
  simp [coverCount]

theorem pairs_count (a : DateTime) (l : List DateTime) (h : (a :: l).Pairwise (· < ·)) (t : DateTime) :
    coverCount (Periods.pairs (a :: l)) t
      = if a ≤ t ∧ t < (a :: l).getLast (by simp) then 1 else 0 := by
  induction l generalizing a with
  | nil => simp only [Periods.pairs, coverCount, List.getLast_singleton]; grind
  | cons b l ih =>
    have h2 : (b :: l).Pairwise (· < ·) := h.of_cons
    have hab : a < b := List.rel_of_pairwise_cons h (by simp)
    have hl := head_le_getLast b l h2
    rw [Periods.pairs, coverCount_cons, ih b h2, List.getLast_cons (l := b :: l) (by simp)]
    simp only [Covers]
    generalize (b :: l).getLast (by simp) = last at *
    grind

theorem pairs_length (a : DateTime) (l : List DateTime) : (Periods.pairs (a :: l)).length = l.length := by
  induction l generalizing a with
  | nil => simp [Periods.pairs]
  | cons b l ih => simp [Periods.pairs, ih]

theorem consecutive_append_single (ps : List Period) (q : Period)
    (h : Consecutive ps) (hq : ∀ p, ps.getLast? = some p → p.stop = q.start) : Consecutive (ps ++ [q]) := by
  induction ps with
  | nil => simp [Consecutive]
  | cons p ps ih =>
    cases ps with
    | nil => simp [Consecutive]; exact hq p (by simp)
    | cons p2 ps =>
      simp only [Consecutive, List.cons_append] at h ⊢
      exact ⟨h.1, ih h.2 (by intro p' hp'; apply hq; rw [List.getLast?_cons_cons]; exact hp')⟩

theorem pairs_consecutive (a : DateTime) (l : List DateTime) : Consecutive (Periods.pairs (a :: l)) := by
  induction l generalizing a with
  | nil => simp [Periods.pairs, Consecutive]
  | cons b l ih =>
    rw [Periods.pairs]
    cases l with
    | nil => simp [Periods.pairs, Consecutive]
    | cons c l => simp only [Periods.pairs, Consecutive]; exact ⟨trivial, by have := ih b; simpa [Periods.pairs] using this⟩

theorem pairs_head (a : DateTime) (l : List DateTime) (p : Period) :
    (Periods.pairs (a :: l)).head? = some p → p.start = a := by
  cases l <;> simp [Periods.pairs]
  intro h; rw [← h]

theorem pairs_last (a : DateTime) (l : List DateTime) (p : Period) :
    (Periods.pairs (a :: l)).getLast? = some p → p.stop = (a :: l).getLast (by simp) := by
  induction l generalizing a with
  | nil => simp [Periods.pairs]
  | cons b l ih =>
    rw [Periods.pairs, List.getLast_cons (by simp)]
    cases l with
    | nil => simp [Periods.pairs]; intro h; rw [← h]
    | cons c l =>
      intro h
      apply ih
      rw [Periods.pairs] at h ⊢
      rw [List.getLast?_cons_cons] at h; exact h

/-- **C01, partition.** For strictly increasing dates within the representable range, every moment is
covered by exactly one period if it is on the requested timeline and by none otherwise. -/
theorem C01_partition (first : DateTime) (rest : List DateTime) (before after : Bool)
    (hs : (first :: rest).Pairwise (· < ·)) (t : DateTime) :
    coverCount (Periods.createPeriods (first :: rest) before after) t = 1 ∧
        Timeline first ((first :: rest).getLast (by simp)) before after t
    ∨ coverCount (Periods.createPeriods (first :: rest) before after) t = 0 ∧
        ¬ Timeline first ((first :: rest).getLast (by simp)) before after t := by
  have hc := pairs_count first rest hs t
  have hl := head_le_getLast first rest hs
  have e0 : coverCount [] t = 0 := rfl
  have hb : ∀ p : Period, coverCount [p] t = if Covers p t then 1 else 0 := by
    intro p; rw [coverCount_cons, e0]; rfl
  unfold Timeline Periods.createPeriods
  rw [coverCount_append, coverCount_append, hc]
  generalize (first :: rest).getLast (by simp) = last at *
  cases before <;> cases after <;> simp only [if_true, if_false, hb, e0, Covers, Bool.false_eq_true,
    false_and, true_and, false_or, or_false] <;>
    grind

/-- **C01, adjacency and number of periods.** -/
theorem C01_adjacent (times : List DateTime) (before after : Bool) :
    Consecutive (Periods.createPeriods times before after) ∧
    (Periods.createPeriods times before after).length =
      (if times = [] then 0 else times.length - 1 + before.toNat + after.toNat) := by
  cases times with
  | nil => simp [Periods.createPeriods, Consecutive]
  | cons a l =>
    have h1 := pairs_consecutive a l
    have hh := pairs_head a l
    have hlast := pairs_last a l
    have hlen := pairs_length a l
    constructor
    · unfold Periods.createPeriods
      generalize hP : Periods.pairs (a :: l) = P at *
      simp only [hP]
      have hpre : Consecutive ((if before = true then [⟨dtMin, a⟩] else []) ++ P) := by
        cases before
        · simpa using h1
        · simp only [if_true, List.singleton_append]
          cases P with
          | nil => simp [Consecutive]
          | cons p P => simp only [Consecutive]; exact ⟨(hh p (by simp)).symm, h1⟩
      cases after
      · simpa using hpre
      · simp only [if_true]
        apply consecutive_append_single _ _ hpre
        intro p hp
        simp only
        cases P with
        | nil =>
          have : l = [] := List.length_eq_zero_iff.mp (by simpa using hlen.symm)
          subst this
          cases before <;> simp at hp ⊢
          rw [← hp]
        | cons q P =>
          apply hlast
          cases before
          · simpa using hp
          · simp only [if_true, List.singleton_append, List.getLast?_cons_cons] at hp; exact hp
    · unfold Periods.createPeriods
      cases before <;> cases after <;> simp [hlen]

/-- Non-vacuity: three dates, both flags; 2 is covered exactly once, by `[1,5)`. -/
example : ([1, 5, 9] : List DateTime).Pairwise (· < ·) ∧
    coverCount (Periods.createPeriods [1, 5, 9] true true) 2 = 1 ∧
    Timeline 1 9 true true 2 := by
  refine ⟨by decide, by decide, ?_⟩
  unfold Timeline; omega

end Verif.C01
