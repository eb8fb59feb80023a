import Verif.Lemmas.SortedSet
import Verif.Lemmas.Calendar
import Verif.Props.C01

/-! # C06 — Reporting periods cover the modelled time without gaps -/

namespace Verif.C06
open Verif.Time Verif.C01 Verif.CalendarSpec

/-- Specification: midnight of day `n` as a moment. -/
def midnight (n : Nat) : DateTime := (n : Int) * (86400 * 1000000)

/-- Specification: `x` is a date of the frequency (a midnight of a year start / month start / any day). -/
def IsFrequencyDate (freq : Frequency) (x : DateTime) : Prop := ∃ n, FreqDay freq n ∧ x = midnight n

/-- Time of day in microseconds. -/
def timeOfDay (x : DateTime) : Int := x % (86400 * 1000000)

/-- Start of the day of `x`. -/
def startOfDay (x : DateTime) : DateTime := x - timeOfDay x

theorem clearTime_eq (x : DateTime) : clearTime x = startOfDay x := by
  unfold clearTime startOfDay timeOfDay usPerDay; omega

theorem mem_createDates (freq : Frequency) (s e : DateTime) (bs be : Bool) (hs : 0 ≤ s) (hse : s < e)
    (htod : timeOfDay s ≤ timeOfDay e) (x : DateTime) :
    x ∈ createStartAndEndDates freq s e bs be ↔
      (bs = true ∧ x = startOfDay s) ∨ (be = true ∧ x = startOfDay e) ∨
      (IsFrequencyDate freq x ∧ startOfDay s < x ∧ x < startOfDay e) := by
  have hrange : x ∈ (dateRange (s + usPerDay) (e - usPerDay) freq).map clearTime ↔
      (IsFrequencyDate freq x ∧ startOfDay s < x ∧ x < startOfDay e) := by
    unfold dateRange
    simp only [List.map_map, List.mem_map, List.mem_filter, List.mem_range, Bool.and_eq_true,
      decide_eq_true_eq, Function.comp_apply]
    unfold IsFrequencyDate midnight
    simp only [freq_day]
    constructor
    · rintro ⟨k, ⟨hk1, ⟨hk2, hk3⟩, hk4⟩, rfl⟩
      refine ⟨⟨k, hk3, ?_⟩, ?_, ?_⟩
      · unfold clearTime usPerDay at *; omega
      · unfold clearTime dayNumber startOfDay timeOfDay usPerDay at *; omega
      · unfold clearTime dayNumber startOfDay timeOfDay usPerDay at *; omega
    · rintro ⟨⟨k, hk3, rfl⟩, h1, h2⟩
      refine ⟨k, ⟨?_, ⟨?_, hk3⟩, ?_⟩, ?_⟩
      all_goals (simp only [dayNumber, startOfDay, timeOfDay, clearTime, usPerDay] at *; omega)
  unfold createStartAndEndDates
  rw [mem_sortedSet]
  rw [clearTime_eq s, clearTime_eq e]
  cases bs <;> cases be <;> simp only [Bool.false_eq_true, if_false, if_true, false_and, true_and, false_or,
    List.mem_cons, hrange] <;> grind

/-- **C06, boundaries.** The reporting dates are strictly increasing; they are exactly the requested
start-of-day of the first date, start-of-day of the last date, and the frequency dates strictly between
them. (Hypothesis on the time of day: always true for the midnight dates used in practice; see
`C06_frequency_date_missed` for what happens otherwise.) -/
theorem C06_boundaries_partial (freq : Frequency) (s e : DateTime) (bs be : Bool) (hs : 0 ≤ s) (hse : s < e)
    (htod : timeOfDay s ≤ timeOfDay e) :
    (createStartAndEndDates freq s e bs be).Pairwise (· < ·) ∧
    ∀ x, x ∈ createStartAndEndDates freq s e bs be ↔
      (bs = true ∧ x = startOfDay s) ∨ (be = true ∧ x = startOfDay e) ∨
      (IsFrequencyDate freq x ∧ startOfDay s < x ∧ x < startOfDay e) := by
  refine ⟨?_, mem_createDates freq s e bs be hs hse htod⟩
  unfold createStartAndEndDates; exact pairwise_sortedSet _

theorem head_last_of_sorted (l : List Int) (h : l.Pairwise (· < ·)) (a b : Int) (ha : a ∈ l) (hb : b ∈ l)
    (hmin : ∀ x ∈ l, a ≤ x) (hmax : ∀ x ∈ l, x ≤ b) :
    ∃ rest, l = a :: rest ∧ (a :: rest).getLast (by simp) = b := by
  cases l with
  | nil => simp at ha
  | cons c l =>
    have hc : c = a := by
      have h1 := hmin c (by simp)
      rcases List.mem_cons.mp ha with e | e
      · exact e.symm
      · have := (List.pairwise_cons.mp h).1 a e; omega
    subst hc
    refine ⟨l, rfl, ?_⟩
    have h1 := hmax _ (List.getLast_mem (l := c :: l) (by simp))
    apply Int.le_antisymm h1
    clear ha hmin hmax h1
    induction l generalizing c with
    | nil => simp at hb; simp [hb]
    | cons d l ih =>
      rw [List.getLast_cons (by simp)]
      rcases List.mem_cons.mp hb with e | e
      · have h2 := (List.pairwise_cons.mp h).1 ((d :: l).getLast (by simp)) (List.getLast_mem _)
        omega
      · exact ih d h.of_cons e

/-- **C06, partition.** With start and end dates included, the reporting periods are consecutive, and every
moment from the start of the first day up to the start of the last day lies in exactly one reporting period;
no other moment lies in any. This holds for all dates (no hypothesis on the time of day). -/
theorem C06_partition (ps : List Period) (freq : Frequency) (hfreq : freq ≠ .none) (f l : Period)
    (hf : ps.head? = some f) (hl : ps.getLast? = some l) (hs : 0 ≤ f.start) (hse : f.start < l.stop) :
    ∃ r, resamplePeriods ps freq true true = .ok r ∧ Consecutive r ∧
      ∀ t, coverCount r t = if startOfDay f.start ≤ t ∧ t < startOfDay l.stop then 1 else 0 := by
  have hsort : (createStartAndEndDates freq f.start l.stop true true).Pairwise (· < ·) := by
    unfold createStartAndEndDates; exact pairwise_sortedSet _
  have hbound : ∀ x ∈ createStartAndEndDates freq f.start l.stop true true,
      startOfDay f.start ≤ x ∧ x ≤ startOfDay l.stop := by
    intro x hx
    unfold createStartAndEndDates at hx
    rw [mem_sortedSet] at hx
    simp only [if_true, List.mem_cons, clearTime_eq] at hx
    have hle : startOfDay f.start ≤ startOfDay l.stop := by unfold startOfDay timeOfDay; omega
    rcases hx with rfl | rfl | hx
    · omega
    · omega
    · unfold dateRange at hx
      simp only [List.map_map, List.mem_map, List.mem_filter, List.mem_range, Bool.and_eq_true,
        decide_eq_true_eq, Function.comp_apply] at hx
      obtain ⟨k, ⟨hk1, ⟨hk2, hk3⟩, hk4⟩, rfl⟩ := hx
      unfold clearTime dayNumber startOfDay timeOfDay usPerDay at *
      omega
  have hmemS : startOfDay f.start ∈ createStartAndEndDates freq f.start l.stop true true := by
    unfold createStartAndEndDates; rw [mem_sortedSet]; simp [clearTime_eq]
  have hmemE : startOfDay l.stop ∈ createStartAndEndDates freq f.start l.stop true true := by
    unfold createStartAndEndDates; rw [mem_sortedSet]; simp [clearTime_eq]
  obtain ⟨rest, hrest, hlast⟩ := head_last_of_sorted _ hsort _ _ hmemS hmemE
    (fun x hx => (hbound x hx).1) (fun x hx => (hbound x hx).2)
  refine ⟨Periods.createPeriods (createStartAndEndDates freq f.start l.stop true true) false false, ?_,
    (C01_adjacent _ false false).1, ?_⟩
  · unfold resamplePeriods; rw [if_neg hfreq, hf, hl]
  · intro t
    rw [hrest]
    have := C01_partition (startOfDay f.start) rest false false (by rw [← hrest]; exact hsort) t
    rw [hlast] at this
    unfold Timeline at this
    simp only [Bool.false_eq_true, false_and, false_or, or_false] at this
    split <;> grind

/-- **C06, no resampling** leaves the periods as they are. -/
theorem C06_none (ps : List Period) (bs be : Bool) : resamplePeriods ps .none bs be = .ok ps := rfl

/-- Negative result: when the first date has a later time of day than the last one, a frequency date
strictly between them can be missing from the reporting dates (here: the midnight of day 2 between day 1,
12:00 and day 3, 06:00 with daily frequency). So the boundary characterisation needs its hypothesis. -/
theorem C06_frequency_date_missed :
    ∃ s e x, 0 ≤ s ∧ s < e ∧ IsFrequencyDate .day x ∧ startOfDay s < x ∧ x < startOfDay e ∧
      x ∉ createStartAndEndDates .day s e true true := by
  refine ⟨86400 * 1000000 * 3 / 2, 86400 * 1000000 * 13 / 4, midnight 2, by decide, by decide,
    ⟨2, trivial, rfl⟩, by decide, by decide, by decide⟩

/-- The first of January of year 2 and the first of March of the leap year 4. -/
example : FreqDay .year 365 ∧ FreqDay .month (365 * 3 + 60) :=
  ⟨⟨2, by decide, by decide⟩, 4, 3, by decide, by decide, by decide, by decide⟩

/-- Non-vacuity: 30 days from day 10 (0001-01-11) with monthly frequency: one inner boundary, 1 February. -/
example : createStartAndEndDates .month (midnight 10) (midnight 40) true true
      = [midnight 10, midnight 31, midnight 40] ∧
    timeOfDay (midnight 10) ≤ timeOfDay (midnight 40) ∧ (0 : Int) ≤ midnight 10 ∧ midnight 10 < midnight 40 := by
  refine ⟨by decide +kernel, by decide, by decide, by decide⟩

end Verif.C06
