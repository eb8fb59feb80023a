import Mathlib.Tactic.FieldSimp
import Mathlib.Tactic.Ring
import Mathlib.Tactic.NormNum
import Verif.Lemmas.RateLemmas

/-! # C07 — Stream-day and calendar-day rates convert back and forth without loss -/

namespace Verif.C07
open Verif.Time Verif.Units Verif.Rates Verif.RateLemmas

/-- One value and one regularity per period (what the constructor of a rate series guarantees). -/
def OnePerPeriod (s : RateTS) : Prop :=
  s.periods.length = s.values.length ∧ s.periods.length = s.regularity.length

/-- Every regularity is a number different from zero. -/
def NonZeroRegularity (s : RateTS) : Prop := ∀ r ∈ s.regularity, ∃ q : ℚ, r = some q ∧ q ≠ 0

theorem constructor_one_per_period {ps vs u rt reg s} (h : RateTS.make ps vs u rt reg = .ok s) :
    OnePerPeriod s := by
  unfold RateTS.make at h
  split at h
  · simp only [Except.ok.injEq] at h; subst h; assumption
  · simp at h

/-- Specification: `t` is `s` expressed as a rate of type `rt`, with the values given by `f` from the value
and the regularity of each period. -/
def SameExcept (s t : RateTS) (rt : RateType) : Prop :=
  t.periods = s.periods ∧ t.unit = s.unit ∧ t.regularity = s.regularity ∧ t.rateType = rt ∧
    t.values.length = s.values.length

/-- **C07, round trip from calendar day.** -/
theorem C07_calendar_stream_calendar (s : RateTS) (hw : OnePerPeriod s) (ht : s.rateType = .calendarDay)
    (hr : NonZeroRegularity s) :
    ∃ t, s.toStreamDay = .ok t ∧ SameExcept s t .streamDay ∧ t.toCalendarDay = .ok s := by
  obtain ⟨ps, vs, u, rt, reg⟩ := s
  simp only at ht; subst ht
  obtain ⟨h1, h2⟩ := hw
  simp only at h1 h2
  have hl : vs.length = reg.length := by omega
  refine ⟨⟨ps, List.zipWith streamDayValue vs reg, u, .streamDay, reg⟩, ?_, ?_, ?_⟩
  · simp [RateTS.toStreamDay, Rates.toStreamDay, npOp_same hl, RateTS.make, Bind.bind, Except.bind, h2, hl]
  · simp [SameExcept, hl]
  · have hl' : (List.zipWith streamDayValue vs reg).length = reg.length := by simp [hl]
    simp only [RateTS.toCalendarDay, Rates.toCalendarDay, npOp_same hl', Bind.bind, Except.bind]
    rw [zipWith_inverse hl]
    · simp [RateTS.make, h1, hl]
    · intro x _ y hy
      obtain ⟨q, rfl, hq⟩ := hr y hy
      cases x with
      | none => simp [streamDayValue, Fl.div, Fl.mul, hq]
      | some x => simp [streamDayValue, Fl.div, Fl.mul, hq]

/-- **C07, round trip from stream day.** -/
theorem C07_stream_calendar_stream (s : RateTS) (hw : OnePerPeriod s) (ht : s.rateType = .streamDay)
    (hr : NonZeroRegularity s) :
    ∃ t, s.toCalendarDay = .ok t ∧ SameExcept s t .calendarDay ∧ t.toStreamDay = .ok s := by
  obtain ⟨ps, vs, u, rt, reg⟩ := s
  simp only at ht; subst ht
  obtain ⟨h1, h2⟩ := hw
  simp only at h1 h2
  have hl : vs.length = reg.length := by omega
  refine ⟨⟨ps, List.zipWith Fl.mul vs reg, u, .calendarDay, reg⟩, ?_, ?_, ?_⟩
  · simp [RateTS.toCalendarDay, Rates.toCalendarDay, npOp_same hl, RateTS.make, Bind.bind, Except.bind, h2, hl]
  · simp [SameExcept, hl]
  · have hl' : (List.zipWith Fl.mul vs reg).length = reg.length := by simp [hl]
    simp only [RateTS.toStreamDay, Rates.toStreamDay, npOp_same hl', Bind.bind, Except.bind]
    rw [zipWith_inverse hl]
    · simp [RateTS.make, h1, hl]
    · intro x _ y hy
      obtain ⟨q, rfl, hq⟩ := hr y hy
      cases x with
      | none => simp [streamDayValue, Fl.div, Fl.mul, hq]
      | some x => simp [streamDayValue, Fl.div, Fl.mul, hq]

/-- **C07, values.** In every period the calendar-day rate is the stream-day rate times the regularity;
the stream-day rate is the calendar-day rate divided by the regularity, and zero where the regularity is
zero. (Any values, any regularity, NaN included.) -/
theorem C07_values (s : RateTS) (hw : OnePerPeriod s) :
    ∃ c d, s.toCalendarDay = .ok c ∧ s.toStreamDay = .ok d ∧
      SameExcept s c .calendarDay ∧ SameExcept s d .streamDay ∧
      ∀ (i : Nat) (v r : ℚ), s.values[i]? = some (some v) → s.regularity[i]? = some (some r) →
        (s.rateType = .streamDay → c.values[i]? = some (some (v * r)) ∧ d.values[i]? = some (some v)) ∧
        (s.rateType = .calendarDay → c.values[i]? = some (some v) ∧
          (r ≠ 0 → d.values[i]? = some (some (v / r))) ∧ (r = 0 → d.values[i]? = some (some 0))) := by
  obtain ⟨ps, vs, u, rt, reg⟩ := s
  obtain ⟨h1, h2⟩ := hw
  simp only at h1 h2
  have hl : vs.length = reg.length := by omega
  cases rt with
  | streamDay =>
    refine ⟨⟨ps, List.zipWith Fl.mul vs reg, u, .calendarDay, reg⟩, ⟨ps, vs, u, .streamDay, reg⟩, ?_, ?_, ?_, ?_, ?_⟩
    · simp [RateTS.toCalendarDay, Rates.toCalendarDay, npOp_same hl, RateTS.make, Bind.bind, Except.bind, h2, hl]
    · simp [RateTS.toStreamDay]
    · simp [SameExcept, hl]
    · simp [SameExcept]
    · intro i v r hv hr
      simp only at hv hr
      refine ⟨fun _ => ⟨?_, hv⟩, fun h => by cases h⟩
      simp [List.getElem?_zipWith, hv, hr, Fl.mul]
  | calendarDay =>
    refine ⟨⟨ps, vs, u, .calendarDay, reg⟩, ⟨ps, List.zipWith streamDayValue vs reg, u, .streamDay, reg⟩, ?_, ?_, ?_, ?_, ?_⟩
    · simp [RateTS.toCalendarDay]
    · simp [RateTS.toStreamDay, Rates.toStreamDay, npOp_same hl, RateTS.make, Bind.bind, Except.bind, h2, hl]
    · simp [SameExcept]
    · simp [SameExcept, hl]
    · intro i v r hv hr
      simp only at hv hr
      refine ⟨fun h => (by cases h), fun _ => ⟨hv, fun h0 => ?_, fun h0 => ?_⟩⟩
      · simp [List.getElem?_zipWith, hv, hr, streamDayValue, Fl.div, h0]
      · simp [List.getElem?_zipWith, hv, hr, streamDayValue, h0]

/-- **C07, idempotence.** Converting to the type the series already has changes nothing. -/
theorem C07_same_type_unchanged (s : RateTS) :
    (s.rateType = .calendarDay → s.toCalendarDay = .ok s) ∧ (s.rateType = .streamDay → s.toStreamDay = .ok s) := by
  constructor <;> intro h <;> simp [RateTS.toCalendarDay, RateTS.toStreamDay, h]

/-- Non-vacuity: two periods with rates 10 and NaN, regularities 1/2 and 1. -/
example : ∃ s, OnePerPeriod s ∧ s.rateType = .calendarDay ∧ NonZeroRegularity s ∧
    ∃ t, s.toStreamDay = .ok t ∧ t.values = [some 20, none] := by
  refine ⟨⟨[⟨0, 5⟩, ⟨5, 9⟩], [some 10, none], .MEGA_WATT, .calendarDay, [some (1/2), some 1]⟩, ⟨rfl, rfl⟩, rfl,
    ?_, _, rfl, ?_⟩
  · intro r hr
    rcases List.mem_cons.mp hr with rfl | hr
    · exact ⟨_, rfl, by norm_num⟩
    · rcases List.mem_cons.mp hr with rfl | hr
      · exact ⟨_, rfl, by norm_num⟩
      · simp at hr
  · decide +kernel

end Verif.C07
