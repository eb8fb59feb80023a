import Verif.Model.InputSeries
import Verif.Lemmas.SortedSet
import Verif.Props.C05

/-! # C15 — The global time vector is sorted, duplicate free and inside the requested range -/

namespace Verif.C15
open Verif.Time Verif.InputSeries Verif.C05

/-- Specification: the date the modelled time starts at. -/
def StartsAt (tv : List DateTime) (start? : Option DateTime) (s : DateTime) : Prop :=
  match start? with
  | some x => s = x
  | none => s ∈ tv ∧ ∀ d ∈ tv, s ≤ d

theorem go_spec (tv add : List DateTime) (stop s : DateTime) (h : s < stop) :
    ∃ r, getGlobalTimeVector.go tv stop add s = .ok r ∧ r.Pairwise (· < ·) ∧ r.head? = some s ∧
      r.getLast? = some stop ∧
      ∀ d, d ∈ r ↔ (d ∈ tv ∨ d ∈ add ∨ d = s ∨ d = stop) ∧ s ≤ d ∧ d ≤ stop := by
  unfold getGlobalTimeVector.go
  rw [if_neg (by omega)]
  refine ⟨_, rfl, ?_, ?_, ?_, ?_⟩
  · exact (pairwise_sortedSet _).filter _
  all_goals
    generalize hr : (sortedSet (tv ++ [s, stop] ++ add)).filter
      (fun d => decide (s ≤ d) && decide (d ≤ stop)) = r
  all_goals
    have hp : r.Pairwise (· < ·) := by rw [← hr]; exact (pairwise_sortedSet _).filter _
    have hmem : ∀ d, d ∈ r ↔ (d ∈ tv ∨ d ∈ add ∨ d = s ∨ d = stop) ∧ s ≤ d ∧ d ≤ stop := by
      intro d
      rw [← hr, List.mem_filter, mem_sortedSet]
      simp only [List.mem_append, List.mem_cons, List.not_mem_nil, or_false, Bool.and_eq_true, decide_eq_true_eq]
      tauto
  · have hs : s ∈ r := (hmem s).mpr ⟨by tauto, by omega, by omega⟩
    cases r with
    | nil => simp at hs
    | cons a r =>
      have ha := (hmem a).mp (by simp)
      rcases List.mem_cons.mp hs with h | h
      · rw [h]; rfl
      · have := (List.pairwise_cons.mp hp).1 s h
        omega
  · have hs : stop ∈ r := (hmem stop).mpr ⟨by tauto, by omega, by omega⟩
    have hne : r ≠ [] := by rintro rfl; simp at hs
    rw [List.getLast?_eq_some_getLast hne]
    have hl := (hmem (r.getLast hne)).mp (List.getLast_mem hne)
    congr 1
    obtain ⟨k, hk, e⟩ := List.mem_iff_getElem.mp hs
    rw [List.getLast_eq_getElem] at hl ⊢
    rcases Nat.lt_or_ge k (r.length - 1) with h' | h'
    · have := List.pairwise_iff_getElem.mp hp k (r.length - 1) hk (by omega) h'
      omega
    · have : k = r.length - 1 := by omega
      subst this; exact e
  · exact hmem

/-- **C15.** With a start date at hand (given, or the earliest date of the time series) that is before the end
date, the result is strictly increasing, begins at the start, finishes at the end, and consists of exactly the
time series dates, additional dates, start and end that are within the range. -/
theorem C15_time_vector (tv add : List DateTime) (stop : DateTime) (start? : Option DateTime) (s : DateTime)
    (hs : StartsAt tv start? s) (h : s < stop) :
    ∃ r, getGlobalTimeVector tv stop start? add = .ok r ∧ r.Pairwise (· < ·) ∧ r.head? = some s ∧
      r.getLast? = some stop ∧
      ∀ d, d ∈ r ↔ (d ∈ tv ∨ d ∈ add ∨ d = s ∨ d = stop) ∧ s ≤ d ∧ d ≤ stop := by
  unfold getGlobalTimeVector
  cases start? with
  | some x => simp only [StartsAt] at hs; subst hs; exact go_spec tv add stop s h
  | none =>
    have : tv.min? = some s := List.min?_eq_some_iff.mpr hs
    rw [this]
    exact go_spec tv add stop s h

/-- **C15, input order and repetition do not matter.** -/
theorem C15_order_independent (tv tv' add add' : List DateTime) (stop : DateTime) (start? : Option DateTime)
    (h1 : ∀ d, d ∈ tv ↔ d ∈ tv') (h2 : ∀ d, d ∈ add ↔ d ∈ add') :
    getGlobalTimeVector tv stop start? add = getGlobalTimeVector tv' stop start? add' := by
  have hmin : tv.min? = tv'.min? := by
    cases h : tv.min? with
    | none =>
      have : tv = [] := by simpa using h
      subst this
      have : tv' = [] := List.eq_nil_iff_forall_not_mem.mpr (fun d hd => by simpa using (h1 d).mpr hd)
      subst this; rfl
    | some m =>
      symm
      obtain ⟨a, b⟩ := List.min?_eq_some_iff.mp h
      exact List.min?_eq_some_iff.mpr ⟨(h1 m).mp a, fun d hd => b d ((h1 d).mpr hd)⟩
  have hgo : ∀ s, getGlobalTimeVector.go tv stop add s = getGlobalTimeVector.go tv' stop add' s := by
    intro s
    unfold getGlobalTimeVector.go
    rw [strict_ext (pairwise_sortedSet (tv ++ [s, stop] ++ add)) (pairwise_sortedSet (tv' ++ [s, stop] ++ add'))]
    intro d
    simp only [mem_sortedSet, List.mem_append, h1, h2]
  unfold getGlobalTimeVector
  rw [hmin]
  cases start? with
  | some x => exact hgo x
  | none => cases tv'.min? with
    | none => rfl
    | some m => exact hgo m

/-- **C15, errors.** No dates and no start is rejected; an end that is not after the start is rejected. -/
theorem C15_errors (tv add : List DateTime) (stop : DateTime) (start? : Option DateTime) :
    (tv = [] ∧ start? = none → getGlobalTimeVector tv stop start? add = .error .valueError) ∧
    (∀ s, StartsAt tv start? s → stop ≤ s → getGlobalTimeVector tv stop start? add = .error .invalidDate) := by
  constructor
  · rintro ⟨rfl, rfl⟩; rfl
  · intro s hs h
    unfold getGlobalTimeVector
    cases start? with
    | some x =>
      simp only [StartsAt] at hs; subst hs
      simp [getGlobalTimeVector.go, h]
    | none =>
      have : tv.min? = some s := List.min?_eq_some_iff.mpr hs
      rw [this]
      simp [getGlobalTimeVector.go, h]

/-- **C15, collections.** The dates that drive the time vector are exactly those of the flagged collections. -/
theorem C15_collections (cs : List (Bool × List DateTime)) (d : DateTime) :
    d ∈ collectionsTimeVector cs ↔ ∃ ds, (true, ds) ∈ cs ∧ d ∈ ds := by
  have gen : ∀ (acc : List DateTime), d ∈ cs.foldl (fun tv c => if c.1 then tv ++ c.2 else tv) acc ↔
      d ∈ acc ∨ ∃ ds, (true, ds) ∈ cs ∧ d ∈ ds := by
    induction cs with
    | nil => simp
    | cons c cs ih =>
      intro acc
      obtain ⟨b, ds⟩ := c
      rw [List.foldl_cons, ih]
      cases b with
      | false =>
        simp
      | true =>
        simp only [if_true, List.mem_append, List.mem_cons, Prod.mk.injEq, true_and]
        constructor
        · rintro ((h | h) | ⟨x, h1, h2⟩)
          · exact Or.inl h
          · exact Or.inr ⟨ds, Or.inl rfl, h⟩
          · exact Or.inr ⟨x, Or.inr h1, h2⟩
        · rintro (h | ⟨x, h1 | h1, h2⟩)
          · exact Or.inl (Or.inl h)
          · subst h1; exact Or.inl (Or.inr h2)
          · exact Or.inr ⟨x, h1, h2⟩
  rw [collectionsTimeVector, gen]; simp

theorem pairs_wf (l : List Int) (h : l.Pairwise (· < ·)) : WF (Periods.pairs l) := by
  induction l with
  | nil => trivial
  | cons a l ih =>
    cases l with
    | nil => trivial
    | cons b l =>
      have hab := (List.pairwise_cons.mp h).1 b (by simp)
      have := ih h.of_cons
      cases l with
      | nil => exact hab
      | cons c l => exact ⟨hab, rfl, this⟩

theorem pairs_ends (a b : Int) (l : List Int) :
    (Periods.pairs (a :: b :: l)).head?.map (·.start) = some a ∧
    (Periods.pairs (a :: b :: l)).getLast?.map (·.stop) = (b :: l).getLast? := by
  refine ⟨rfl, ?_⟩
  induction l generalizing a b with
  | nil => rfl
  | cons c l ih =>
    have := ih b c
    rw [Periods.pairs]
    rw [show (b :: c :: l).getLast? = (c :: l).getLast? by simp]
    rw [← this]
    rw [show Periods.pairs (b :: c :: l) = ⟨b, c⟩ :: Periods.pairs (c :: l) from rfl]
    simp

/-- **C15, modelled periods.** The periods built from the time vector (model.py:307) are consecutive,
non-empty, and run from the start date to the end date. -/
theorem C15_periods (tv add : List DateTime) (stop : DateTime) (start? : Option DateTime) (s : DateTime)
    (hs : StartsAt tv start? s) (h : s < stop) :
    ∃ r f l, getGlobalTimeVector tv stop start? add = .ok r ∧
      WF (Periods.createPeriods r false false) ∧
      (Periods.createPeriods r false false).head? = some f ∧ f.start = s ∧
      (Periods.createPeriods r false false).getLast? = some l ∧ l.stop = stop := by
  obtain ⟨r, hr, hp, hh, hl, -⟩ := C15_time_vector tv add stop start? s hs h
  have hcp : Periods.createPeriods r false false = Periods.pairs r := by
    cases r <;> simp [Periods.createPeriods, Periods.pairs]
  refine ⟨r, ?_⟩
  rw [hcp]
  cases r with
  | nil => simp at hh
  | cons a r =>
    cases r with
    | nil => simp at hh hl; omega
    | cons b r =>
      obtain ⟨e1, e2⟩ := pairs_ends a b r
      have hne : Periods.pairs (a :: b :: r) ≠ [] := by simp [Periods.pairs]
      refine ⟨(Periods.pairs (a :: b :: r)).head hne, (Periods.pairs (a :: b :: r)).getLast hne, hr,
        pairs_wf _ hp, List.head?_eq_some_head hne, ?_, List.getLast?_eq_some_getLast hne, ?_⟩
      · simp at hh; subst hh; simp [Periods.pairs]
      · rw [List.getLast?_eq_some_getLast hne] at e2
        rw [List.getLast?_cons_cons] at hl
        rw [hl] at e2
        simpa using e2

/-- Non-vacuity: unsorted dates with repetitions, one additional date, one date after the end. -/
example : StartsAt [7, 3, 5, 3, 20] none 3 ∧
    getGlobalTimeVector [7, 3, 5, 3, 20] 10 none [6, 1] = .ok [3, 5, 6, 7, 10] := by
  refine ⟨⟨by decide, by decide⟩, by decide +kernel⟩

end Verif.C15
