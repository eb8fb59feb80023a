import Verif.Props.C07

/-! # C12 — Adding rate series adds the calendar-day rates -/

namespace Verif.C12
open Verif.Time Verif.Units Verif.Rates Verif.RateLemmas Verif.C07

theorem elementwiseSum_same {xs ys : List Fl} (h : xs.length = ys.length) :
    elementwiseSum xs ys = .ok (List.zipWith Fl.add (xs.map nanToNum) (ys.map nanToNum)) := by
  unfold elementwiseSum; rw [npOp_same (by simpa using h)]

/-- What the addition produces for compatible series: value sums, and either the common regularity or the
quotient of the calendar-day and the stream-day sums. -/
theorem add_eq (s o : RateTS) (hs : OnePerPeriod s) (ho : OnePerPeriod o) (hp : s.periods = o.periods)
    (hu : s.unit = o.unit) (ht : s.rateType = o.rateType) :
    ∃ c1 c2 d1 d2, s.toCalendarDay = .ok c1 ∧ o.toCalendarDay = .ok c2 ∧ s.toStreamDay = .ok d1 ∧
      o.toStreamDay = .ok d2 ∧ SameExcept s c1 .calendarDay ∧ SameExcept o c2 .calendarDay ∧
      SameExcept s d1 .streamDay ∧ SameExcept o d2 .streamDay ∧
      ∃ reg, s.add o = .ok ⟨s.periods, List.zipWith Fl.add (s.values.map nanToNum) (o.values.map nanToNum),
          s.unit, s.rateType, reg⟩ ∧ reg.length = s.periods.length ∧
        (s.regularity = o.regularity ∧ none ∉ s.regularity → reg = s.regularity) ∧
        (¬(s.regularity = o.regularity ∧ none ∉ s.regularity) → reg = List.zipWith Fl.div
          (List.zipWith Fl.add (c1.values.map nanToNum) (c2.values.map nanToNum))
          (List.zipWith Fl.add (d1.values.map nanToNum) (d2.values.map nanToNum))) := by
  obtain ⟨c1, d1, hc1, hd1, sc1, sd1, -⟩ := C07_values s hs
  obtain ⟨c2, d2, hc2, hd2, sc2, sd2, -⟩ := C07_values o ho
  refine ⟨c1, c2, d1, d2, hc1, hc2, hd1, hd2, sc1, sc2, sd1, sd2, ?_⟩
  have hv : s.values.length = o.values.length := by rw [← hs.1, ← ho.1, hp]
  have l1 := sc1.2.2.2.2
  have l2 := sc2.2.2.2.2
  have l3 := sd1.2.2.2.2
  have l4 := sd2.2.2.2.2
  unfold RateTS.add
  rw [if_neg (by simpa using hu), if_neg (by simpa using ht)]
  by_cases hr : s.regularity = o.regularity ∧ none ∉ s.regularity
  · rw [if_pos hr]
    refine ⟨s.regularity, ?_, hs.2.symm, fun _ => rfl, fun h => absurd hr h⟩
    simp only [elementwiseSum_same hv, Bind.bind, Except.bind, RateTS.make]
    rw [if_pos]
    refine ⟨?_, hs.2⟩
    simp [← hv, hs.1]
  · rw [if_neg hr]
    refine ⟨_, ?_, ?_, fun h => absurd h hr, fun _ => rfl⟩
    · simp only [hc1, hc2, hd1, hd2, Bind.bind, Except.bind, elementwiseSum_same hv,
        elementwiseSum_same (show c1.values.length = c2.values.length by omega),
        elementwiseSum_same (show d1.values.length = d2.values.length by omega)]
      rw [npOp_same (by simp; omega)]
      simp only [RateTS.make]
      rw [if_pos]
      simp only [List.length_zipWith, List.length_map]
      have := hs.1
      omega
    · simp only [List.length_zipWith, List.length_map]
      have := hs.1
      omega

/-- **C12, calendar-day rates add (partial).** In every period the calendar-day rate of the sum is the sum of
the calendar-day rates. Missing: stream-day series with different regularities whose rates add up to zero in
that period; there the code divides by zero, see `C12_zero_sum_is_nan`. -/
theorem C12_calendar_partial (s o : RateTS) (hs : OnePerPeriod s) (ho : OnePerPeriod o)
    (hp : s.periods = o.periods) (hu : s.unit = o.unit) (ht : s.rateType = o.rateType)
    (hns : none ∉ s.regularity) :
    ∃ r c1 c2 c, s.add o = .ok r ∧ r.periods = s.periods ∧ r.unit = s.unit ∧ r.rateType = s.rateType ∧
      OnePerPeriod r ∧
      s.toCalendarDay = .ok c1 ∧ o.toCalendarDay = .ok c2 ∧ r.toCalendarDay = .ok c ∧
      ∀ (i : Nat) (v w p q : ℚ), s.values[i]? = some (some v) → o.values[i]? = some (some w) →
        s.regularity[i]? = some (some p) → o.regularity[i]? = some (some q) →
        (s.regularity ≠ o.regularity → s.rateType = .streamDay → v + w ≠ 0) →
        ∃ a b, c1.values[i]? = some (some a) ∧ c2.values[i]? = some (some b) ∧
          c.values[i]? = some (some (a + b)) := by
  obtain ⟨c1, c2, d1, d2, hc1, hc2, hd1, hd2, -, -, -, -, reg, hadd, hreg, hsame, hdiff⟩ :=
    add_eq s o hs ho hp hu ht
  have hv : s.values.length = o.values.length := by rw [← hs.1, ← ho.1, hp]
  generalize hr : (RateTS.mk s.periods (List.zipWith Fl.add (s.values.map nanToNum) (o.values.map nanToNum))
    s.unit s.rateType reg) = r at hadd
  have hwr : OnePerPeriod r := by
    rw [← hr]
    refine ⟨?_, hreg.symm⟩
    simp [← hv, hs.1]
  obtain ⟨c, d, hc, -, -, -, hcv⟩ := C07_values r hwr
  obtain ⟨c1', d1', hc1', hd1', -, -, hcv1⟩ := C07_values s hs
  obtain ⟨c2', d2', hc2', hd2', -, -, hcv2⟩ := C07_values o ho
  rw [hc1] at hc1'; rw [hc2] at hc2'; rw [hd1] at hd1'; rw [hd2] at hd2'
  cases hc1'; cases hc2'; cases hd1'; cases hd2'
  refine ⟨r, c1, c2, c, hadd, by rw [← hr], by rw [← hr], by rw [← hr], hwr, hc1, hc2, hc, ?_⟩
  intro i v w p q h1 h2 h3 h4 hz
  have e1 := hcv1 i v p h1 h3
  have e2 := hcv2 i w q h2 h4
  have hrv : r.values[i]? = some (some (v + w)) := by
    rw [← hr]; simp [List.getElem?_zipWith, h1, h2, nanToNum, Fl.add]
  cases hty : s.rateType with
  | calendarDay =>
    have a1 := (e1.2 hty).1
    have a2 := (e2.2 (ht ▸ hty)).1
    refine ⟨v, w, a1, a2, ?_⟩
    have : c = r := by
      have : r.toCalendarDay = .ok r := by
        have : r.rateType = .calendarDay := by rw [← hr]; exact hty
        simp [RateTS.toCalendarDay, this]
      rw [hc] at this; exact Except.ok.inj this
    rw [this]; exact hrv
  | streamDay =>
    obtain ⟨a1, b1⟩ := e1.1 hty
    obtain ⟨a2, b2⟩ := e2.1 (ht ▸ hty)
    refine ⟨v * p, w * q, a1, a2, ?_⟩
    have hrt : r.rateType = .streamDay := by rw [← hr]; exact hty
    by_cases hre : s.regularity = o.regularity
    · have hrr : r.regularity[i]? = some (some p) := by
        rw [← hr]; simp only; rw [hsame ⟨hre, hns⟩]; exact h3
      have hpq : p = q := by rw [← hre, h3] at h4; simpa using h4
      have := ((hcv i (v + w) p hrv hrr).1 hrt).1
      rw [this, hpq, add_mul]
    · have hvw := hz hre hty
      have hrr : r.regularity[i]? = some (some ((v * p + w * q) / (v + w))) := by
        rw [← hr]; simp only
        rw [hdiff (fun h => hre h.1)]
        simp [List.getElem?_zipWith, a1, a2, b1, b2, nanToNum, Fl.add, Fl.div, hvw]
      have := ((hcv i (v + w) _ hrv hrr).1 hrt).1
      rw [this]
      congr 2
      field_simp

/-- **C12, stream-day rates add for equal regularity.** The regularity is kept. -/
theorem C12_stream_same_regularity (s o : RateTS) (hs : OnePerPeriod s) (ho : OnePerPeriod o)
    (hp : s.periods = o.periods) (hu : s.unit = o.unit) (ht : s.rateType = o.rateType)
    (hre : s.regularity = o.regularity) (hns : none ∉ s.regularity) :
    ∃ r d1 d2 d, s.add o = .ok r ∧ r.periods = s.periods ∧ r.unit = s.unit ∧ r.rateType = s.rateType ∧
      r.regularity = s.regularity ∧
      s.toStreamDay = .ok d1 ∧ o.toStreamDay = .ok d2 ∧ r.toStreamDay = .ok d ∧
      ∀ (i : Nat) (v w p : ℚ), s.values[i]? = some (some v) → o.values[i]? = some (some w) →
        s.regularity[i]? = some (some p) →
        ∃ a b, d1.values[i]? = some (some a) ∧ d2.values[i]? = some (some b) ∧
          d.values[i]? = some (some (a + b)) := by
  obtain ⟨c1, c2, d1, d2, -, -, hd1, hd2, -, -, -, -, reg, hadd, hreg, hsame, -⟩ :=
    add_eq s o hs ho hp hu ht
  have hv : s.values.length = o.values.length := by rw [← hs.1, ← ho.1, hp]
  generalize hr : (RateTS.mk s.periods (List.zipWith Fl.add (s.values.map nanToNum) (o.values.map nanToNum))
    s.unit s.rateType reg) = r at hadd
  have hwr : OnePerPeriod r := by
    rw [← hr]
    refine ⟨?_, hreg.symm⟩
    simp [← hv, hs.1]
  obtain ⟨c, d, -, hd, -, -, hcv⟩ := C07_values r hwr
  obtain ⟨c1', d1', -, hd1', -, -, hcv1⟩ := C07_values s hs
  obtain ⟨c2', d2', -, hd2', -, -, hcv2⟩ := C07_values o ho
  rw [hd1] at hd1'; rw [hd2] at hd2'
  cases hd1'; cases hd2'
  have hreg' : r.regularity = s.regularity := by rw [← hr]; exact hsame ⟨hre, hns⟩
  refine ⟨r, d1, d2, d, hadd, by rw [← hr], by rw [← hr], by rw [← hr], hreg', hd1, hd2, hd, ?_⟩
  intro i v w p h1 h2 h3
  have e1 := hcv1 i v p h1 h3
  have e2 := hcv2 i w p h2 (hre ▸ h3)
  have hrv : r.values[i]? = some (some (v + w)) := by
    rw [← hr]; simp [List.getElem?_zipWith, h1, h2, nanToNum, Fl.add]
  have e := hcv i (v + w) p hrv (hreg' ▸ h3)
  cases hty : s.rateType with
  | streamDay => exact ⟨v, w, (e1.1 hty).2, (e2.1 (ht ▸ hty)).2, (e.1 (by rw [← hr]; exact hty)).2⟩
  | calendarDay =>
    obtain ⟨-, a1, a1'⟩ := e1.2 hty
    obtain ⟨-, a2, a2'⟩ := e2.2 (ht ▸ hty)
    obtain ⟨-, a3, a3'⟩ := e.2 (by rw [← hr]; exact hty)
    by_cases h0 : p = 0
    · exact ⟨0, 0, a1' h0, a2' h0, by rw [a3' h0]; simp⟩
    · exact ⟨v / p, w / p, a1 h0, a2 h0, by rw [a3 h0, add_div]⟩

/-- **C12, mismatching series are rejected** (whatever they contain). -/
theorem C12_mismatch_rejected (s o : RateTS) (h : s.unit ≠ o.unit ∨ s.rateType ≠ o.rateType) :
    s.add o = .error .valueError := by
  unfold RateTS.add
  by_cases hu : s.unit = o.unit
  · rw [if_neg (by simpa using hu), if_pos (by tauto)]
  · rw [if_pos hu]

/-- **C12 fails when stream-day rates sum to zero.** Two all-zero stream-day series with different (positive)
regularities have calendar-day rates 0 and 0, but their sum has a calendar-day rate that is not a number. -/
theorem C12_zero_sum_is_nan : ∃ s o r c, OnePerPeriod s ∧ OnePerPeriod o ∧ s.periods = o.periods ∧
    s.unit = o.unit ∧ s.rateType = o.rateType ∧ NonZeroRegularity s ∧ NonZeroRegularity o ∧
    s.values = [some 0] ∧ o.values = [some 0] ∧
    s.add o = .ok r ∧ r.toCalendarDay = .ok c ∧ c.values = [none] := by
  refine ⟨⟨[⟨0, 5⟩], [some 0], .MEGA_WATT, .streamDay, [some 1]⟩, ⟨[⟨0, 5⟩], [some 0], .MEGA_WATT, .streamDay, [some (1/2)]⟩,
    ⟨[⟨0, 5⟩], [some 0], .MEGA_WATT, .streamDay, [none]⟩, ⟨[⟨0, 5⟩], [none], .MEGA_WATT, .calendarDay, [none]⟩,
    ⟨rfl, rfl⟩, ⟨rfl, rfl⟩, rfl, rfl, rfl, ?_, ?_, rfl, rfl, ?_, ?_, rfl⟩
  · intro r hr; simp at hr; exact ⟨1, hr, by norm_num⟩
  · intro r hr; simp at hr; exact ⟨1/2, by simpa using hr, by norm_num⟩
  · decide +kernel
  · decide +kernel

/-- Non-vacuity: 10 MW at regularity 1/2 plus 30 MW at regularity 1: 40 MW per stream day at regularity 7/8. -/
example : RateTS.add ⟨[⟨0, 5⟩], [some 10], .MEGA_WATT, .streamDay, [some (1/2)]⟩
      ⟨[⟨0, 5⟩], [some 30], .MEGA_WATT, .streamDay, [some 1]⟩
    = .ok ⟨[⟨0, 5⟩], [some 40], .MEGA_WATT, .streamDay, [some (7/8)]⟩ := by decide +kernel

end Verif.C12
