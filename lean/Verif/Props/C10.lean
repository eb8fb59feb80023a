import Verif.Props.C07
import Verif.Props.C09
import Verif.Props.C14

/-! # C10 — Rates, durations and volumes agree -/

namespace Verif.C10
open Verif.Time Verif.Units Verif.Rates Verif.RateLemmas Verif.C05 Verif.Interp Verif.C09

/-- Specification: number of days of a period (dates are microseconds). -/
def days (p : Period) : ℚ := ((p.stop - p.start : Int) : ℚ) / (24 * 60 * 60 * 1000000)

/-- Specification: calendar-day rate of one period. -/
def calendarRate (rt : RateType) (v r : ℚ) : ℚ := match rt with
  | .calendarDay => v
  | .streamDay => v * r

theorem durationDays_eq (p : Period) : durationDays p = days p := by
  unfold durationDays days; ring

theorem days_pos {p : Period} (h : p.start < p.stop) : 0 < days p := by
  unfold days
  have : (0 : ℚ) < ((p.stop - p.start : Int) : ℚ) := by exact_mod_cast (by omega : 0 < p.stop - p.start)
  exact div_pos this (by norm_num)

theorem deltaDays_wf {p : Period} {ps : List Period} (h : WF (p :: ps)) :
    deltaDays (p.start :: (p :: ps).map (·.stop)) = (p :: ps).map days := by
  induction ps generalizing p with
  | nil => simp [deltaDays, days]; ring
  | cons q ps ih =>
    obtain ⟨h1, h2, h3⟩ := h
    have := ih h3
    simp only [List.map_cons, deltaDays] at this ⊢
    rw [← h2] at this
    rw [this]
    congr 1
    unfold days; ring

theorem mapM_pyDiv (vs : List Fl) (ds : List ℚ) (h : ∀ d ∈ ds, d ≠ 0) :
    (vs.zip ds).mapM (fun vd => pyDiv vd.1 vd.2) = .ok (List.zipWith (fun v d => v.map (· / d)) vs ds) := by
  induction vs generalizing ds with
  | nil => rfl
  | cons v vs ih =>
    cases ds with
    | nil => rfl
    | cons d ds =>
      have hd := h d (by simp)
      have := ih ds (fun x hx => h x (by simp [hx]))
      simp only [List.zip_cons_cons, List.mapM_cons, this, Bind.bind, Except.bind, Pure.pure, Except.pure]
      simp [pyDiv, hd]

theorem toRate_ok (ps : List Period) (vs reg : List Fl) (u u' : EUnit) (hu : u.volumeToRate = .ok u')
    (hne : ps ≠ []) (hw : WF ps) (h1 : ps.length = vs.length) (h2 : ps.length = reg.length) :
    toRate ⟨ps, vs, u⟩ reg = .ok ⟨ps, List.zipWith (fun v p => v.map (· / days p)) vs ps, u', .calendarDay, reg⟩ := by
  cases ps with
  | nil => exact absurd rfl hne
  | cons p ps =>
    have hpos := wf_nonempty hw
    unfold toRate
    simp only [wf_allDates hw, Bind.bind, Except.bind, deltaDays_wf hw]
    rw [mapM_pyDiv]
    · simp only [hu, RateTS.liftU, RateTS.make]
      rw [if_pos (by simp at h1 h2 ⊢; omega)]
      rw [List.zipWith_map_right]
    · intro d hd
      obtain ⟨q, hq, rfl⟩ := List.mem_map.mp hd
      exact ne_of_gt (days_pos (hpos q hq))

theorem rateToVolume_inv {u u' : EUnit} (h : u.rateToVolume = .ok u') : u'.volumeToRate = .ok u := by
  cases u <;> simp [EUnit.rateToVolume] at h <;> subst h <;> rfl

theorem toVolumes_ok (s : RateTS) (hw : C07.OnePerPeriod s) (u' : EUnit) (hu : s.unit.rateToVolume = .ok u') :
    ∃ c, s.toCalendarDay = .ok c ∧ c.values.length = s.periods.length ∧
      s.toVolumes = .ok ⟨s.periods, List.zipWith (fun v p => v.map (· * days p)) c.values s.periods, u'⟩ := by
  obtain ⟨c, _, hc, _, hsame, _, _⟩ := C07.C07_values s hw
  have hcl : c.values.length = s.periods.length := by rw [hsame.2.2.2.2, hw.1]
  refine ⟨c, hc, hcl, ?_⟩
  unfold RateTS.toVolumes
  simp only [hc, Bind.bind, Except.bind, Rates.toVolumes]
  rw [npOp_same (by simp [hcl])]
  simp only [hu, RateTS.liftU]
  unfold TS.make
  rw [if_pos (by simp [hcl])]
  simp only [Except.ok.injEq, TS.mk.injEq, true_and, and_true, List.zipWith_map_right]
  congr 1
  funext v p
  simp only [Fl.mul, Option.map_some, durationDays_eq]
  cases v <;> rfl

/-- **C10, volumes.** The volume of each period is the calendar-day rate times the number of days; periods are
kept. -/
theorem C10_volume_is_rate_times_days (s : RateTS) (hw : C07.OnePerPeriod s) (u' : EUnit)
    (hu : s.unit.rateToVolume = .ok u') :
    ∃ v, s.toVolumes = .ok v ∧ v.periods = s.periods ∧ v.unit = u' ∧ v.values.length = s.values.length ∧
      ∀ (i : Nat) (p : Period) (x r : ℚ), s.periods[i]? = some p → s.values[i]? = some (some x) →
        s.regularity[i]? = some (some r) →
        v.values[i]? = some (some (calendarRate s.rateType x r * days p)) := by
  obtain ⟨c, hc, hcl, hv⟩ := toVolumes_ok s hw u' hu
  obtain ⟨c', d', hc', hd', _, _, hval⟩ := C07.C07_values s hw
  rw [hc] at hc'; cases hc'
  refine ⟨_, hv, rfl, rfl, ?_, ?_⟩
  · simp [hcl, hw.1]
  · intro i p x r hp hx hr
    obtain ⟨h1, h2⟩ := hval i x r hx hr
    have : c.values[i]? = some (some (calendarRate s.rateType x r)) := by
      cases hrt : s.rateType with
      | streamDay => exact (h1 hrt).1
      | calendarDay => exact (h2 hrt).1
    simp [List.getElem?_zipWith, this, hp]

/-- **C10, rate → volume → rate.** For consecutive non-empty periods, converting a calendar-day rate series to
volumes and back with the same regularity returns the series. -/
theorem C10_rate_volume_rate (s : RateTS) (hw : C07.OnePerPeriod s) (hwf : WF s.periods) (hne : s.periods ≠ [])
    (u' : EUnit) (hu : s.unit.rateToVolume = .ok u') :
    ∃ v c, s.toVolumes = .ok v ∧ s.toCalendarDay = .ok c ∧ toRate v s.regularity = .ok c ∧
      (s.rateType = .calendarDay → c = s) ∧
      (s.rateType = .streamDay → C07.NonZeroRegularity s → c.toStreamDay = .ok s) := by
  obtain ⟨c, hc, hcl, hv⟩ := toVolumes_ok s hw u' hu
  have hpos := wf_nonempty hwf
  have hback : ∀ (ps : List Period) (vs : List Fl), ps.length = vs.length → (∀ p ∈ ps, p.start < p.stop) →
      List.zipWith (fun v p => Option.map (· / days p) v)
        (List.zipWith (fun v p => Option.map (· * days p) v) vs ps) ps = vs := by
    intro ps
    induction ps with
    | nil => intro vs h _; cases vs with
      | nil => rfl
      | cons _ _ => simp at h
    | cons p ps ih =>
      intro vs h hp
      cases vs with
      | nil => simp at h
      | cons v vs =>
        simp only [List.zipWith_cons_cons]
        rw [ih vs (by simpa using h) (fun q hq => hp q (by simp [hq]))]
        have := ne_of_gt (days_pos (hp p (by simp)))
        cases v with
        | none => rfl
        | some v => simp [this]
  obtain ⟨c', _, hc', _, hsame, _, _⟩ := C07.C07_values s hw
  rw [hc] at hc'; cases hc'
  refine ⟨_, c, hv, hc, ?_, ?_, ?_⟩
  · rw [toRate_ok _ _ _ u' s.unit (rateToVolume_inv hu) hne hwf (by simp [hcl]) hw.2]
    rw [hback _ _ hcl.symm hpos]
    obtain ⟨h1, h2, h3, h4, -⟩ := hsame
    cases c
    simp only at h1 h2 h3 h4
    subst h1 h2 h3 h4
    rfl
  · intro h
    have := (C07.C07_same_type_unchanged s).1 h
    rw [this] at hc; cases hc; rfl
  · intro h hr
    obtain ⟨t, ht, -, ht2⟩ := C07.C07_stream_calendar_stream s hw h hr
    rw [ht] at hc; cases hc; exact ht2

theorem pairs_wf (l : List Int) (h : l.Pairwise (· < ·)) : WF (Periods.pairs l) := by
  induction l with
  | nil => trivial
  | cons a l ih =>
    cases l with
    | nil => trivial
    | cons b l =>
      have hab := (List.pairwise_cons.mp h).1 b (by simp)
      have := ih h.of_cons
      cases l with
      | nil => exact hab
      | cons c l => exact ⟨hab, rfl, this⟩

theorem resample_wf (ps : List Period) (freq : Frequency) (bs be : Bool) (hfreq : freq ≠ .none) (nps : Periods)
    (hn : resamplePeriods ps freq bs be = .ok nps) : WF nps := by
  unfold resamplePeriods at hn
  rw [if_neg hfreq] at hn
  split at hn
  · simp only [Except.ok.injEq] at hn
    rw [← hn]
    rename_i f l _ _
    have hsort : (createStartAndEndDates freq f.start l.stop bs be).Pairwise (· < ·) := by
      unfold createStartAndEndDates; exact pairwise_sortedSet _
    cases hd : createStartAndEndDates freq f.start l.stop bs be with
    | nil => simp [Periods.createPeriods]; trivial
    | cons d ds =>
      rw [hd] at hsort
      simp only [Periods.createPeriods, Bool.false_eq_true, if_false, List.nil_append, List.append_nil]
      exact pairs_wf _ hsort
  · simp at hn

theorem resampledVolumes_eq (s : RateTS) (rates : List Fl) (freq : Frequency) (bs be : Bool) (u' : EUnit)
    (hu : s.unit.rateToVolume = .ok u') (hl : rates.length = s.periods.length) (hne : s.periods ≠ []) :
    resampledVolumes s rates freq bs be
      = volResample ⟨s.periods, List.zipWith (fun v p => v.map (· * days p)) rates s.periods, u'⟩ freq bs be := by
  have hne' : ¬ rates.length = 0 := by
    rw [hl]; intro h; exact hne (List.length_eq_zero_iff.mp h)
  unfold resampledVolumes cumulativeFromDailyRates volResample cumulative
  rw [if_neg hne']
  simp only [Rates.toVolumes, Bind.bind, Except.bind, Pure.pure, Except.pure]
  rw [npOp_same (by simp [hl])]
  simp only [hu, RateTS.liftU]
  have e : List.zipWith Fl.mul rates (List.map (fun p => some (durationDays p)) s.periods)
      = List.zipWith (fun v p => v.map (· * days p)) rates s.periods := by
    rw [List.zipWith_map_right]
    congr 1
    funext v p
    simp only [Fl.mul, Option.map_some, durationDays_eq]
    cases v <;> rfl
  rw [e]

theorem zipWith_map_same {α β γ δ : Type} (f : β → γ → δ) (g : α → β) (h : α → γ) (l : List α) :
    List.zipWith f (l.map g) (l.map h) = l.map (fun a => f (g a) (h a)) := by
  induction l with
  | nil => rfl
  | cons a l ih => simp [ih]

theorem zipWith_map_self {α β δ : Type} (f : β → α → δ) (g : α → β) (l : List α) :
    List.zipWith f (l.map g) l = l.map (fun a => f (g a) a) := by
  induction l with
  | nil => rfl
  | cons a l ih => simp [ih]

/-- The two volume series computed by `resample`. -/
theorem resample_parts (s : RateTS) (freq : Frequency) (bs be : Bool) (hfreq : freq ≠ .none)
    (hwf : WF s.periods) (hpos : ∀ p ∈ s.periods, 0 ≤ p.start)
    (u' : EUnit) (hu : s.unit.rateToVolume = .ok u') (nps : Periods)
    (hn : resamplePeriods s.periods freq bs be = .ok nps) (hne : nps ≠ []) (rates : List Fl)
    (hl : rates.length = s.periods.length) :
    resampledVolumes s rates freq bs be = .ok ⟨nps, nps.map (fun q => some (volumeInside s.periods
      (List.zipWith (fun v p => v.map (· * days p)) rates s.periods) q)), u'⟩ := by
  have hps : s.periods ≠ [] := by
    intro h
    rw [h] at hn
    simp [resamplePeriods, hfreq] at hn
  rw [resampledVolumes_eq s rates freq bs be u' hu hl hps]
  exact C09_volume_inside ⟨s.periods, _, u'⟩ freq bs be hfreq (by simp [hl]) hwf hpos nps hn hne

/-- **C10, resampling a calendar-day rate keeps the volumes.** Whatever the frequency and the choice of start
and end dates, if there is at least one reporting period then the resampled series produces, in each reporting
period, exactly the volume the original series produces inside it. -/
theorem C10_resample_calendar (s : RateTS) (freq : Frequency) (bs be : Bool) (hfreq : freq ≠ .none)
    (hw : C07.OnePerPeriod s) (hwf : WF s.periods) (hpos : ∀ p ∈ s.periods, 0 ≤ p.start)
    (u' : EUnit) (hu : s.unit.rateToVolume = .ok u') (nps : Periods)
    (hn : resamplePeriods s.periods freq bs be = .ok nps) (hne : nps ≠ []) (ht : s.rateType = .calendarDay) :
    ∃ v r, s.toVolumes = .ok v ∧ s.resample freq bs be = .ok r ∧ r.rateType = .calendarDay ∧ r.periods = nps ∧
      r.unit = s.unit ∧
      r.toVolumes = .ok ⟨nps, nps.map (fun q => some (volumeInside v.periods v.values q)), v.unit⟩ := by
  obtain ⟨c, hc, hcl, hv⟩ := toVolumes_ok s hw u' hu
  obtain ⟨c', d, hc', hd, _, hsd, _⟩ := C07.C07_values s hw
  rw [hc] at hc'; cases hc'
  have hdl : d.values.length = s.periods.length := by rw [hsd.2.2.2.2, hw.1]
  have hC := resample_parts s freq bs be hfreq hwf hpos u' hu nps hn hne c.values hcl
  have hS := resample_parts s freq bs be hfreq hwf hpos u' hu nps hn hne d.values hdl
  have hnw := resample_wf _ freq bs be hfreq nps hn
  have hnpos := wf_nonempty hnw
  generalize hVC : (fun q => volumeInside s.periods (List.zipWith (fun v p => v.map (· * days p)) c.values s.periods) q)
    = VC at *
  have hVC' : ∀ q, volumeInside s.periods (List.zipWith (fun v p => v.map (· * days p)) c.values s.periods) q = VC q :=
    fun q => congrFun hVC q
  generalize hVS : (fun q => volumeInside s.periods (List.zipWith (fun v p => v.map (· * days p)) d.values s.periods) q)
    = VS at *
  have hVS' : ∀ q, volumeInside s.periods (List.zipWith (fun v p => v.map (· * days p)) d.values s.periods) q = VS q :=
    fun q => congrFun hVS q
  simp only [hVC', hVS'] at hC hS ⊢
  refine ⟨_, ⟨nps, nps.map (fun q => some (VC q / days q)), s.unit, .calendarDay,
    nps.map (fun q => newRegularity (some (VC q)) (some (VS q)))⟩, hv, ?_, rfl, rfl, rfl, ?_⟩
  · unfold RateTS.resample
    rw [if_neg hfreq]
    simp only [hc, hd, hC, hS, Bind.bind, Except.bind, ht, if_true]
    rw [zipWith_map_same, toRate_ok _ _ _ u' s.unit (rateToVolume_inv hu) hne hnw (by simp) (by simp),
      zipWith_map_self]
    simp
  · obtain ⟨c2, hc2, _, hv2⟩ := toVolumes_ok (⟨nps, nps.map (fun q => some (VC q / days q)), s.unit, .calendarDay,
      nps.map (fun q => newRegularity (some (VC q)) (some (VS q)))⟩ : RateTS) ⟨by simp, by simp⟩ u' hu
    rw [hv2]
    simp only [RateTS.toCalendarDay, if_true, Except.ok.injEq] at hc2
    subst hc2
    simp only [zipWith_map_self, Except.ok.injEq, TS.mk.injEq, true_and, and_true, hVC']
    apply List.map_congr_left
    intro q hq
    have := ne_of_gt (days_pos (hnpos q hq))
    simp [this]

theorem stream_zero_calendar_zero (ps : List Period) (vs reg : List Fl) (q : Period)
    (hp : ∀ p ∈ ps, p.start < p.stop) (hv : ∀ x ∈ vs, 0 ≤ x.getD 0) :
    0 ≤ volumeInside ps (List.zipWith (fun v p => v.map (· * days p)) vs ps) q ∧
    (volumeInside ps (List.zipWith (fun v p => v.map (· * days p)) vs ps) q = 0 →
     volumeInside ps (List.zipWith (fun v p => v.map (· * days p)) (List.zipWith Fl.mul vs reg) ps) q = 0) := by
  induction ps generalizing vs reg with
  | nil => simp [volumeInside]
  | cons p ps ih =>
    cases vs with
    | nil => simp [volumeInside]
    | cons v vs =>
      obtain ⟨i1, i2⟩ := ih vs reg.tail (fun r hr => hp r (by simp [hr])) (fun x hx => hv x (by simp [hx]))
      have e1 : volumeInside (p :: ps) (List.zipWith (fun v p => v.map (· * days p)) (v :: vs) (p :: ps)) q
          = (v.map (· * days p)).getD 0 * (commonTime p q : ℚ) / ((p.stop - p.start : Int) : ℚ)
            + volumeInside ps (List.zipWith (fun v p => v.map (· * days p)) vs ps) q := by
        simp [volumeInside]
      have hd := days_pos (hp p (by simp))
      have hlen : (0 : ℚ) < ((p.stop - p.start : Int) : ℚ) := by
        have := hp p (by simp)
        exact_mod_cast (by omega : 0 < p.stop - p.start)
      have hct : (0 : ℚ) ≤ (commonTime p q : ℚ) := by
        have : 0 ≤ commonTime p q := by unfold commonTime; omega
        exact_mod_cast this
      have hv0 := hv v (by simp)
      have t1 : 0 ≤ (v.map (· * days p)).getD 0 * (commonTime p q : ℚ) / ((p.stop - p.start : Int) : ℚ) := by
        apply div_nonneg _ hlen.le
        apply mul_nonneg _ hct
        cases v with
        | none => simp
        | some v => simp at hv0 ⊢; exact mul_nonneg hv0 hd.le
      refine ⟨by rw [e1]; linarith, ?_⟩
      intro h0
      rw [e1] at h0
      have z1 : (v.map (· * days p)).getD 0 * (commonTime p q : ℚ) / ((p.stop - p.start : Int) : ℚ) = 0 := by linarith
      have z2 := i2 (by linarith)
      cases reg with
      | nil => simp [volumeInside]
      | cons r reg =>
        have e2 : volumeInside (p :: ps) (List.zipWith (fun v p => v.map (· * days p))
              (List.zipWith Fl.mul (v :: vs) (r :: reg)) (p :: ps)) q
            = ((Fl.mul v r).map (· * days p)).getD 0 * (commonTime p q : ℚ) / ((p.stop - p.start : Int) : ℚ)
              + volumeInside ps (List.zipWith (fun v p => v.map (· * days p)) (List.zipWith Fl.mul vs reg) ps) q := by
          simp [volumeInside]
        rw [e2]
        simp only [List.tail_cons] at z2
        rw [z2, add_zero]
        rcases div_eq_zero_iff.mp z1 with h | h
        · rcases mul_eq_zero.mp h with h | h
          · cases v with
            | none => simp [Fl.mul]
            | some v =>
              simp at h
              rcases h with h | h
              · cases r <;> simp [Fl.mul, h]
              · exact absurd h (ne_of_gt hd)
          · simp [h]
        · exact absurd h (ne_of_gt hlen)

/-- **C10, resampling a stream-day rate keeps the volumes** when no rate is negative. (Full claim: for every
rate series. Missing: series with negative rates, for which it is false, see `C10_stream_cancellation`.) -/
theorem C10_resample_stream_partial (s : RateTS) (freq : Frequency) (bs be : Bool) (hfreq : freq ≠ .none)
    (hw : C07.OnePerPeriod s) (hwf : WF s.periods) (hpos : ∀ p ∈ s.periods, 0 ≤ p.start)
    (u' : EUnit) (hu : s.unit.rateToVolume = .ok u') (nps : Periods)
    (hn : resamplePeriods s.periods freq bs be = .ok nps) (hne : nps ≠ []) (ht : s.rateType = .streamDay)
    (hnn : ∀ x ∈ s.values, 0 ≤ x.getD 0) :
    ∃ v r, s.toVolumes = .ok v ∧ s.resample freq bs be = .ok r ∧ r.rateType = .streamDay ∧ r.periods = nps ∧
      r.unit = s.unit ∧
      r.toVolumes = .ok ⟨nps, nps.map (fun q => some (volumeInside v.periods v.values q)), v.unit⟩ := by
  obtain ⟨c, hc, hcl, hv⟩ := toVolumes_ok s hw u' hu
  obtain ⟨c', d, hc', hd, _, hsd, _⟩ := C07.C07_values s hw
  rw [hc] at hc'; cases hc'
  have hdl : d.values.length = s.periods.length := by rw [hsd.2.2.2.2, hw.1]
  have hC := resample_parts s freq bs be hfreq hwf hpos u' hu nps hn hne c.values hcl
  have hS := resample_parts s freq bs be hfreq hwf hpos u' hu nps hn hne d.values hdl
  have hnw := resample_wf _ freq bs be hfreq nps hn
  have hnpos := wf_nonempty hnw
  have hdv : d = s := by
    have := (C07.C07_same_type_unchanged s).2 ht
    rw [this] at hd; cases hd; rfl
  subst hdv
  have hcv : c.values = List.zipWith Fl.mul d.values d.regularity := by
    unfold RateTS.toCalendarDay at hc
    rw [if_neg (by rw [ht]; decide)] at hc
    simp only [Rates.toCalendarDay, npOp_same (show d.values.length = d.regularity.length by rw [← hw.1, hw.2]),
      Bind.bind, Except.bind, RateTS.make] at hc
    split at hc
    · simp only [Except.ok.injEq] at hc; rw [← hc]
    · simp at hc
  have hzero : ∀ q, volumeInside d.periods (List.zipWith (fun v p => v.map (· * days p)) d.values d.periods) q = 0 →
      volumeInside d.periods (List.zipWith (fun v p => v.map (· * days p)) c.values d.periods) q = 0 := by
    intro q
    rw [hcv]
    exact (stream_zero_calendar_zero d.periods d.values d.regularity q (wf_nonempty hwf) hnn).2
  generalize hVC : (fun q => volumeInside d.periods (List.zipWith (fun v p => v.map (· * days p)) c.values d.periods) q)
    = VC at *
  have hVC' : ∀ q, volumeInside d.periods (List.zipWith (fun v p => v.map (· * days p)) c.values d.periods) q = VC q :=
    fun q => congrFun hVC q
  generalize hVS : (fun q => volumeInside d.periods (List.zipWith (fun v p => v.map (· * days p)) d.values d.periods) q)
    = VS at *
  have hVS' : ∀ q, volumeInside d.periods (List.zipWith (fun v p => v.map (· * days p)) d.values d.periods) q = VS q :=
    fun q => congrFun hVS q
  simp only [hVC', hVS'] at hzero hC hS ⊢
  have hr0 : toRate ⟨nps, nps.map (fun q => some (VC q)), u'⟩
      (nps.map (fun q => newRegularity (some (VC q)) (some (VS q))))
      = .ok ⟨nps, nps.map (fun q => some (VC q / days q)), d.unit, .calendarDay,
        nps.map (fun q => newRegularity (some (VC q)) (some (VS q)))⟩ := by
    rw [toRate_ok _ _ _ u' d.unit (rateToVolume_inv hu) hne hnw (by simp) (by simp), zipWith_map_self]
    simp
  have hr1 : RateTS.toStreamDay ⟨nps, nps.map (fun q => some (VC q / days q)), d.unit, .calendarDay,
        nps.map (fun q => newRegularity (some (VC q)) (some (VS q)))⟩
      = .ok ⟨nps, nps.map (fun q => streamDayValue (some (VC q / days q)) (newRegularity (some (VC q)) (some (VS q)))),
        d.unit, .streamDay, nps.map (fun q => newRegularity (some (VC q)) (some (VS q)))⟩ := by
    simp [RateTS.toStreamDay, Rates.toStreamDay, npOp_same, RateTS.make, Bind.bind, Except.bind]
  refine ⟨_, ⟨nps, nps.map (fun q => streamDayValue (some (VC q / days q)) (newRegularity (some (VC q)) (some (VS q)))),
        d.unit, .streamDay, nps.map (fun q => newRegularity (some (VC q)) (some (VS q)))⟩, hv, ?_, rfl, rfl, rfl, ?_⟩
  · unfold RateTS.resample
    rw [if_neg hfreq]
    simp only [hc, hd, hC, hS, Bind.bind, Except.bind]
    rw [zipWith_map_same, hr0]
    simp only [ht, reduceCtorEq, if_false]
    exact hr1
  · obtain ⟨c2, hc2, _, hv2⟩ := toVolumes_ok (⟨nps, nps.map (fun q => streamDayValue (some (VC q / days q))
        (newRegularity (some (VC q)) (some (VS q)))), d.unit, .streamDay,
        nps.map (fun q => newRegularity (some (VC q)) (some (VS q)))⟩ : RateTS)
      ⟨by simp, by simp⟩ u' hu
    rw [hv2]
    have hc2v : c2.values = nps.map (fun q => Fl.mul (streamDayValue (some (VC q / days q))
        (newRegularity (some (VC q)) (some (VS q)))) (newRegularity (some (VC q)) (some (VS q)))) := by
      simp [RateTS.toCalendarDay, Rates.toCalendarDay, npOp_same, RateTS.make, Bind.bind,
        Except.bind] at hc2
      rw [← hc2]
    rw [hc2v]
    simp only [zipWith_map_self, Except.ok.injEq, TS.mk.injEq, true_and, and_true]
    apply List.map_congr_left
    intro q hq
    rw [hVC']
    have hdq := ne_of_gt (days_pos (hnpos q hq))
    by_cases hs0 : VS q = 0
    · have := hzero q hs0
      simp [newRegularity, hs0, this, streamDayValue, Fl.mul]
    · by_cases hc0 : VC q = 0
      · simp [newRegularity, hs0, hc0, streamDayValue, Fl.mul, Fl.div]
      · simp [newRegularity, hs0, hc0, streamDayValue, Fl.mul, Fl.div]
        field_simp

/-- Negative result: with rates of opposite sign the stream-day volumes of a reporting period can cancel to
zero although the calendar-day volumes do not; the resampled stream-day series then produces nothing.
(Daily rates 10 with regularity 1 and -10 with regularity 1/2, reported yearly: 5 units are lost.) -/
theorem C10_stream_cancellation : ∃ s r rv v, C07.OnePerPeriod s ∧ WF s.periods ∧ s.rateType = .streamDay ∧
    s.toVolumes = .ok v ∧ v.values = [some 10, some (-5)] ∧ s.resample .year true true = .ok r ∧
    r.toVolumes = .ok rv ∧ rv.values = [some 0] := by
  refine ⟨⟨[⟨0, usPerDay⟩, ⟨usPerDay, 2 * usPerDay⟩], [some 10, some (-10)], .MEGA_WATT, .streamDay,
    [some 1, some (1/2)]⟩, ⟨[⟨0, 2 * usPerDay⟩], [some 0], .MEGA_WATT, .streamDay, [some 0]⟩,
    ⟨[⟨0, 2 * usPerDay⟩], [some 0], .MEGA_WATT_DAYS⟩,
    ⟨[⟨0, usPerDay⟩, ⟨usPerDay, 2 * usPerDay⟩], [some 10, some (-5)], .MEGA_WATT_DAYS⟩, ⟨rfl, rfl⟩,
    ⟨by decide, rfl, by unfold WF; decide⟩, rfl, by decide +kernel, rfl, by decide +kernel, by decide +kernel, rfl⟩

/-- Non-vacuity: a two-period stream-day series with non-negative rates, resampled monthly. -/
example : ∃ s nps, C07.OnePerPeriod s ∧ WF s.periods ∧ (∀ p ∈ s.periods, 0 ≤ p.start) ∧
    s.unit.rateToVolume = .ok .MEGA_WATT_DAYS ∧ resamplePeriods s.periods .month true true = .ok nps ∧
    nps.length = 2 ∧ (∀ x ∈ s.values, 0 ≤ x.getD 0) := by
  refine ⟨⟨[⟨10 * usPerDay, 30 * usPerDay⟩, ⟨30 * usPerDay, 50 * usPerDay⟩], [some 4, some 2], .MEGA_WATT,
    .streamDay, [some 1, some (1/2)]⟩, [⟨10 * usPerDay, 31 * usPerDay⟩, ⟨31 * usPerDay, 50 * usPerDay⟩],
    ⟨rfl, rfl⟩, ⟨by decide, rfl, by unfold WF; decide⟩, ?_, rfl, by decide +kernel, rfl, ?_⟩
  · decide
  · simp

end Verif.C10
