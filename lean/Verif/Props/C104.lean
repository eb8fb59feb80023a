import Verif.Model.Coarse
import Verif.Props.C06
import Verif.Props.C10

/-!
# C104 — Pressures and other plain series at a coarser frequency

When results are reported yearly or monthly, a plain series of floats (a pressure, a temperature, an
efficiency, a regularity) shows for a reporting period the value of the last reporting date at which a period of
the original series starts with a number. That is the value in effect when all changes fall on reporting dates,
and it is not otherwise: a value that changed between two reporting dates is never shown.
-/

namespace Verif.C104
open Verif.Time Verif.Units Verif.Rates Verif.C05 Verif.C06 Verif.Coarse

/-- Specification: a period of the series starts at `d`, and its value is the number `v`. -/
def Begins (s : TS Fl) (d : DateTime) (v : ℚ) : Prop :=
  ∃ (i : Nat) (p : Period), s.periods[i]? = some p ∧ s.values[i]? = some (some v) ∧ p.start = d

/-- Specification: the number `v` is in effect at the moment `d`. -/
def InEffect (s : TS Fl) (d : DateTime) (v : ℚ) : Prop :=
  ∃ (i : Nat) (p : Period), s.periods[i]? = some p ∧ s.values[i]? = some (some v) ∧ p.start ≤ d ∧ d < p.stop

/-! ### Forward fill -/

theorem fillForward_length (prev : Fl) (l : List Fl) : (fillForward prev l).length = l.length := by
  induction l generalizing prev with
  | nil => rfl
  | cons a l ih => cases a <;> simp [fillForward, ih]

/-- What forward fill shows at a position: the last number at or before it, or else what came before. -/
theorem fillForward_get (l : List Fl) (prev : Fl) (k : Nat) (hk : k < l.length) :
    (∃ (j : Nat) (v : ℚ), j ≤ k ∧ l[j]? = some (some v) ∧ (fillForward prev l)[k]? = some (some v) ∧
      ∀ i, j < i → i ≤ k → l[i]? = some none) ∨
    ((∀ i, i ≤ k → l[i]? = some none) ∧ (fillForward prev l)[k]? = some prev) := by
  induction l generalizing prev k with
  | nil => simp at hk
  | cons a l ih =>
    cases k with
    | zero =>
      cases a with
      | none =>
        right
        refine ⟨fun i hi => ?_, by simp [fillForward]⟩
        have : i = 0 := by omega
        subst this; rfl
      | some v =>
        left
        exact ⟨0, v, le_refl _, rfl, by simp [fillForward], fun i h1 h2 => by omega⟩
    | succ k =>
      have hk' : k < l.length := by simpa using hk
      cases a with
      | none =>
        rcases ih prev k hk' with ⟨j, v, hj, h1, h2, h3⟩ | ⟨h1, h2⟩
        · left
          refine ⟨j + 1, v, by omega, by simpa using h1, by simpa [fillForward] using h2, fun i hi1 hi2 => ?_⟩
          cases i with
          | zero => omega
          | succ i => simpa using h3 i (by omega) (by omega)
        · right
          refine ⟨fun i hi => ?_, by simpa [fillForward] using h2⟩
          cases i with
          | zero => rfl
          | succ i => simpa using h1 i (by omega)
      | some w =>
        rcases ih (some w) k hk' with ⟨j, v, hj, h1, h2, h3⟩ | ⟨h1, h2⟩
        · left
          refine ⟨j + 1, v, by omega, by simpa using h1, by simpa [fillForward] using h2, fun i hi1 hi2 => ?_⟩
          cases i with
          | zero => omega
          | succ i => simpa using h3 i (by omega) (by omega)
        · left
          refine ⟨0, w, by omega, rfl, by simpa [fillForward] using h2, fun i hi1 hi2 => ?_⟩
          cases i with
          | zero => omega
          | succ i => simpa using h1 i (by omega)

/-! ### Values at start dates -/

theorem sorted_starts {ps : List Period} (hw : WF ps) {i j : Nat} {p q : Period} (hij : i < j)
    (hp : ps[i]? = some p) (hq : ps[j]? = some q) : p.start < q.start := by
  obtain ⟨hi, rfl⟩ := List.getElem?_eq_some_iff.1 hp
  obtain ⟨hj, rfl⟩ := List.getElem?_eq_some_iff.1 hq
  have h1 := List.pairwise_iff_getElem.1 (wf_pairwise hw) i j hi hj hij
  have h2 := wf_nonempty hw ps[i] (List.getElem_mem _)
  omega

theorem start_inj {ps : List Period} (hw : WF ps) {i j : Nat} {p q : Period} (hp : ps[i]? = some p)
    (hq : ps[j]? = some q) (h : p.start = q.start) : i = j := by
  rcases Nat.lt_trichotomy i j with hlt | heq | hlt
  · have := sorted_starts hw hlt hp hq; omega
  · exact heq
  · have := sorted_starts hw hlt hq hp; omega

theorem valueAt_some (s : TS Fl) (hw : WF s.periods) (d : DateTime) (v : ℚ) :
    valueAt ((Periods.startDates s.periods).zip s.values) d = some v ↔ Begins s d v := by
  obtain ⟨ps, vs, u⟩ := s
  simp only at hw
  unfold valueAt Begins
  simp only
  constructor
  · intro h
    cases hf : List.find? (fun dv : DateTime × Fl => dv.1 == d) ((Periods.startDates ps).zip vs) with
    | none => simp [hf] at h
    | some dv =>
      rw [hf] at h
      have h2 : dv.2 = some v := h
      have h3 := List.find?_some hf
      obtain ⟨i, hi⟩ := List.getElem?_of_mem (List.mem_of_find?_eq_some hf)
      rw [List.getElem?_zip_eq_some] at hi
      obtain ⟨hi1, hi2⟩ := hi
      unfold Periods.startDates at hi1
      rw [List.getElem?_map, Option.map_eq_some_iff] at hi1
      obtain ⟨p, hp, hp2⟩ := hi1
      exact ⟨i, p, hp, by rw [hi2, h2], by rw [hp2]; simpa using h3⟩
  · rintro ⟨i, p, hp, hv, hd⟩
    cases hf : List.find? (fun dv : DateTime × Fl => dv.1 == d) ((Periods.startDates ps).zip vs) with
    | none =>
      rw [List.find?_eq_none] at hf
      have hm : (d, some v) ∈ (Periods.startDates ps).zip vs := by
        apply List.mem_of_getElem? (i := i)
        rw [List.getElem?_zip_eq_some]
        exact ⟨by unfold Periods.startDates; rw [List.getElem?_map, hp]; simp [hd], hv⟩
      exact absurd (beq_self_eq_true d) (hf _ hm)
    | some dv =>
      have h3 := List.find?_some hf
      obtain ⟨j, hj⟩ := List.getElem?_of_mem (List.mem_of_find?_eq_some hf)
      rw [List.getElem?_zip_eq_some] at hj
      obtain ⟨hj1, hj2⟩ := hj
      unfold Periods.startDates at hj1
      rw [List.getElem?_map, Option.map_eq_some_iff] at hj1
      obtain ⟨q, hq, hq2⟩ := hj1
      have he : dv.1 = d := by simpa using h3
      have hij := start_inj hw hp hq (by rw [hd, hq2, he])
      subst hij
      rw [hv] at hj2
      simp only [Option.bind_some]
      exact (Option.some.inj hj2).symm

theorem valueAt_none (s : TS Fl) (hw : WF s.periods) (d : DateTime) :
    valueAt ((Periods.startDates s.periods).zip s.values) d = none ↔ ∀ v, ¬ Begins s d v := by
  constructor
  · intro h v hb
    rw [← valueAt_some s hw, h] at hb
    cases hb
  · intro h
    cases hv : valueAt ((Periods.startDates s.periods).zip s.values) d with
    | none => rfl
    | some v => exact absurd ((valueAt_some s hw d v).1 hv) (h v)

theorem floatResample_parts {s r : TS Fl} {freq : Frequency} {bs be : Bool} (hfreq : freq ≠ .none)
    (h : floatResample s freq bs be = .ok r) :
    resamplePeriods s.periods freq bs be = .ok r.periods ∧ r.unit = s.unit ∧
      r.values = fillForward none ((Periods.startDates r.periods).map
        (valueAt ((Periods.startDates s.periods).zip s.values))) := by
  unfold floatResample at h
  rw [if_neg hfreq] at h
  cases hn : resamplePeriods s.periods freq bs be with
  | error e => simp [hn, Bind.bind, Except.bind] at h
  | ok nps =>
    simp only [hn, Bind.bind, Except.bind, TS.make] at h
    split at h
    · have h := Except.ok.inj h
      subst h
      exact ⟨rfl, rfl, rfl⟩
    · cases h

/-! ### What is shown -/

/-- **C104, success.** A series with at least one period can be resampled, and gets one value per reporting
period. -/
theorem C104_succeeds (s : TS Fl) (freq : Frequency) (bs be : Bool) (hfreq : freq ≠ .none)
    (hne : s.periods ≠ []) :
    ∃ r, floatResample s freq bs be = .ok r ∧ resamplePeriods s.periods freq bs be = .ok r.periods ∧
      r.values.length = r.periods.length ∧ r.unit = s.unit := by
  unfold floatResample
  rw [if_neg hfreq]
  have hn : ∃ nps, resamplePeriods s.periods freq bs be = .ok nps := by
    unfold resamplePeriods
    rw [if_neg hfreq]
    cases hp : s.periods with
    | nil => exact absurd hp hne
    | cons p ps =>
      rw [List.head?_cons, List.getLast?_cons]
      exact ⟨_, rfl⟩
  obtain ⟨nps, hn⟩ := hn
  refine ⟨⟨nps, fillForward none ((Periods.startDates nps).map
        (valueAt ((Periods.startDates s.periods).zip s.values))), s.unit⟩, ?_, hn, ?_, rfl⟩
  · simp only [hn, Bind.bind, Except.bind, TS.make]
    rw [if_pos]
    simp [fillForward_length, Periods.startDates]
  · simp [fillForward_length, Periods.startDates]

/-- **C104, what a reporting period shows.** The number shown for a reporting period is the number with which
the original series starts a period at the latest reporting date (this one or an earlier one) where it does so
at all; without any such date nothing (NaN) is shown. -/
theorem C104_value (s r : TS Fl) (freq : Frequency) (bs be : Bool) (hfreq : freq ≠ .none) (hw : WF s.periods)
    (h : floatResample s freq bs be = .ok r) (k : Nat) (q : Period) (hq : r.periods[k]? = some q) :
    (∃ (j : Nat) (q' : Period) (v : ℚ), j ≤ k ∧ r.periods[j]? = some q' ∧ Begins s q'.start v ∧
      r.values[k]? = some (some v) ∧
      ∀ (i : Nat) (q'' : Period), j < i → i ≤ k → r.periods[i]? = some q'' → ∀ w, ¬ Begins s q''.start w) ∨
    ((∀ (i : Nat) (q'' : Period), i ≤ k → r.periods[i]? = some q'' → ∀ w, ¬ Begins s q''.start w) ∧
      r.values[k]? = some none) := by
  obtain ⟨hn, -, hv⟩ := floatResample_parts hfreq h
  have hk : k < r.periods.length := (List.getElem?_eq_some_iff.1 hq).1
  have hget : ∀ (i : Nat), ((Periods.startDates r.periods).map
      (valueAt ((Periods.startDates s.periods).zip s.values)))[i]? =
      (r.periods[i]?).map (fun p => valueAt ((Periods.startDates s.periods).zip s.values) p.start) := by
    intro i
    unfold Periods.startDates
    rw [List.getElem?_map, List.getElem?_map, Option.map_map]
    rfl
  rw [hv]
  rcases fillForward_get ((Periods.startDates r.periods).map
        (valueAt ((Periods.startDates s.periods).zip s.values))) none k
      (by simpa [Periods.startDates] using hk) with ⟨j, v, hj, h1, h2, h3⟩ | ⟨h1, h2⟩
  · left
    rw [hget, Option.map_eq_some_iff] at h1
    obtain ⟨q', hq', hb⟩ := h1
    refine ⟨j, q', v, hj, hq', (valueAt_some s hw _ _).1 hb, h2, fun i q'' hi1 hi2 hq'' => ?_⟩
    have := h3 i hi1 hi2
    rw [hget, hq''] at this
    exact (valueAt_none s hw _).1 (Option.some.inj this)
  · right
    refine ⟨fun i q'' hi hq'' => ?_, h2⟩
    have := h1 i hi
    rw [hget, hq''] at this
    exact (valueAt_none s hw _).1 (Option.some.inj this)

theorem begins_unique {s : TS Fl} (hw : WF s.periods) {d : DateTime} {v w : ℚ} (h1 : Begins s d v)
    (h2 : Begins s d w) : v = w := by
  rw [← valueAt_some s hw] at h1 h2
  rw [h1] at h2
  exact Option.some.inj h2

/-- **C104, a change on a reporting date is shown.** If a period of the series starts at the first date of a
reporting period, the reporting period shows its value. -/
theorem C104_on_date (s r : TS Fl) (freq : Frequency) (bs be : Bool) (hfreq : freq ≠ .none) (hw : WF s.periods)
    (h : floatResample s freq bs be = .ok r) (k : Nat) (q : Period) (hq : r.periods[k]? = some q) (v : ℚ)
    (hb : Begins s q.start v) : r.values[k]? = some (some v) := by
  rcases C104_value s r freq bs be hfreq hw h k q hq with ⟨j, q', w, hj, hq', hb', hr, hno⟩ | ⟨hno, -⟩
  · by_cases hjk : j = k
    · subst hjk
      rw [hq] at hq'
      cases hq'
      rw [hr, begins_unique hw hb hb']
    · exact absurd hb (hno k q (by omega) (le_refl _) hq v)
  · exact absurd hb (hno k q (le_refl _) hq v)

/-- **C104, nothing is invented.** Every number shown is the value with which the series starts a period at a
reporting date that is not later. So the value of a period that does not start on a reporting date is never
shown, however long the period lasts. -/
theorem C104_only_dates (s r : TS Fl) (freq : Frequency) (bs be : Bool) (hfreq : freq ≠ .none)
    (hw : WF s.periods) (h : floatResample s freq bs be = .ok r) (k : Nat) (q : Period)
    (hq : r.periods[k]? = some q) (v : ℚ) (hv : r.values[k]? = some (some v)) :
    ∃ q' ∈ r.periods, q'.start ≤ q.start ∧ Begins s q'.start v := by
  rcases C104_value s r freq bs be hfreq hw h k q hq with ⟨j, q', w, hj, hq', hb', hr, -⟩ | ⟨-, hr⟩
  · rw [hr] at hv
    cases hv
    refine ⟨q', List.mem_of_getElem? hq', ?_, hb'⟩
    have hwr : WF r.periods := C10.resample_wf s.periods freq bs be hfreq _ (floatResample_parts hfreq h).1
    by_cases hjk : j = k
    · subst hjk; rw [hq] at hq'; cases hq'; exact le_refl _
    · exact le_of_lt (sorted_starts hwr (by omega) hq' hq)
  · rw [hr] at hv
    cases hv

/-- **C104, changes on reporting dates.** When every period of the series that starts no later than a reporting
period starts on a reporting date, the reporting period shows the value in effect at its first date. -/
theorem C104_in_effect (s r : TS Fl) (freq : Frequency) (bs be : Bool) (hfreq : freq ≠ .none)
    (hw : WF s.periods) (h : floatResample s freq bs be = .ok r) (k : Nat) (q : Period)
    (hq : r.periods[k]? = some q) (v : ℚ) (hv : InEffect s q.start v)
    (hall : ∀ p ∈ s.periods, p.start ≤ q.start → ∃ q' ∈ r.periods, q'.start = p.start)  :
    r.values[k]? = some (some v) := by
  obtain ⟨i, p, hp, hpv, hp1, hp2⟩ := hv
  have hwr : WF r.periods := C10.resample_wf s.periods freq bs be hfreq _ (floatResample_parts hfreq h).1
  obtain ⟨q', hq', hqs⟩ := hall p (List.mem_of_getElem? hp) hp1
  obtain ⟨j, hj⟩ := List.getElem?_of_mem hq'
  have hb : Begins s q'.start v := ⟨i, p, hp, hpv, hqs.symm⟩
  have hjk : j ≤ k := by
    by_contra hc
    have := sorted_starts hwr (by omega : k < j) hq hj
    omega
  rcases C104_value s r freq bs be hfreq hw h k q hq with ⟨m, q₂, w, hm, hq₂, hb₂, hr, hno⟩ | ⟨hno, -⟩
  · have hmj : j ≤ m := by
      by_contra hc
      exact hno j q' (by omega) hjk hj v hb
    by_cases hmeq : m = j
    · subst hmeq
      rw [hj] at hq₂
      cases hq₂
      rw [hr, begins_unique hw hb hb₂]
    · exfalso
      have h1 := sorted_starts hwr (by omega : j < m) hj hq₂
      have h2 : q₂.start ≤ q.start := by
        by_cases hmk : m = k
        · subst hmk; rw [hq] at hq₂; cases hq₂; exact le_refl _
        · exact le_of_lt (sorted_starts hwr (by omega) hq₂ hq)
      obtain ⟨i₂, p₂, hp₂, -, hs₂⟩ := hb₂
      by_cases hi : i < i₂
      · obtain ⟨hi', rfl⟩ := List.getElem?_eq_some_iff.1 hp
        obtain ⟨hi₂, rfl⟩ := List.getElem?_eq_some_iff.1 hp₂
        have := List.pairwise_iff_getElem.1 (wf_pairwise hw) i i₂ hi' hi₂ hi
        omega
      · by_cases hi' : i₂ = i
        · subst hi'; rw [hp] at hp₂; cases hp₂; omega
        · have := sorted_starts hw (by omega : i₂ < i) hp₂ hp
          omega
  · exact absurd hb (hno j q' hjk hj v)

theorem pairs_starts (l : List Int) (hl : l.Pairwise (· < ·)) (x y : Int) (hx : x ∈ l) (hy : y ∈ l)
    (hxy : x < y) : ∃ p ∈ Periods.pairs l, p.start = x := by
  induction l with
  | nil => simp at hx
  | cons a l ih =>
    cases l with
    | nil => simp at hx hy; omega
    | cons b l =>
      unfold Periods.pairs
      rcases List.mem_cons.1 hx with rfl | hx'
      · exact ⟨_, List.mem_cons_self, rfl⟩
      · have hy' : y ∈ b :: l := by
          rcases List.mem_cons.1 hy with rfl | hy'
          · have := (List.pairwise_cons.1 hl).1 x hx'; omega
          · exact hy'
        obtain ⟨p, hp, he⟩ := ih hl.of_cons hx' hy'
        exact ⟨p, List.mem_cons_of_mem _ hp, he⟩

theorem pairs_mem (l : List Int) (q : Period) (hq : q ∈ Periods.pairs l) : q.start ∈ l ∧ q.stop ∈ l := by
  induction l with
  | nil => simp [Periods.pairs] at hq
  | cons a l ih =>
    cases l with
    | nil => simp [Periods.pairs] at hq
    | cons b l =>
      unfold Periods.pairs at hq
      rcases List.mem_cons.1 hq with rfl | hq
      · simp
      · have := ih hq
        exact ⟨List.mem_cons_of_mem _ this.1, List.mem_cons_of_mem _ this.2⟩

/-- **C104, series that change with the reporting calendar.** If the series starts at midnight and all its later
changes fall on the first day of a year (reported yearly), of a month (monthly) or at midnight (daily), every
reporting period shows the value in effect at its first date. -/
theorem C104_aligned (s r : TS Fl) (freq : Frequency) (be : Bool) (hfreq : freq ≠ .none) (hw : WF s.periods)
    (f : Period) (rest : List Period) (hp : s.periods = f :: rest) (h0 : 0 ≤ f.start)
    (hmid : timeOfDay f.start = 0) (hcal : ∀ p ∈ rest, IsFrequencyDate freq p.start)
    (h : floatResample s freq true be = .ok r) (k : Nat) (q : Period) (hq : r.periods[k]? = some q) (v : ℚ)
    (hv : InEffect s q.start v) : r.values[k]? = some (some v) := by
  refine C104_in_effect s r freq true be hfreq hw h k q hq v hv fun p hpm hps => ?_
  have hn := (floatResample_parts hfreq h).1
  unfold resamplePeriods at hn
  rw [if_neg hfreq, hp] at hn
  cases hl : (f :: rest).getLast? with
  | none => simp at hl
  | some l =>
    rw [hl, List.head?_cons] at hn
    have hn := Except.ok.inj hn
    have hfl : f.start < l.stop := by
      have hlm : l ∈ f :: rest := List.mem_of_getLast? hl
      have hln := wf_nonempty (hp ▸ hw) l hlm
      rcases List.mem_cons.1 hlm with rfl | hlm
      · exact hln
      · have h1 := (List.pairwise_cons.1 (wf_pairwise (hp ▸ hw))).1 l hlm
        have h2 := wf_nonempty (hp ▸ hw) f (by simp)
        omega
    have htod : timeOfDay f.start ≤ timeOfDay l.stop := by
      rw [hmid]; unfold timeOfDay; omega
    have hmem := fun x => mem_createDates freq f.start l.stop true be h0 hfl htod x
    have hsort : (createStartAndEndDates freq f.start l.stop true be).Pairwise (· < ·) := by
      unfold createStartAndEndDates; exact pairwise_sortedSet _
    generalize createStartAndEndDates freq f.start l.stop true be = ds at hn hmem hsort
    have hr : r.periods = Periods.pairs ds := by
      rw [← hn]
      cases ds with
      | nil => rfl
      | cons d ds => simp [Periods.createPeriods]
    have hqm : q ∈ Periods.pairs ds := hr ▸ List.mem_of_getElem? hq
    obtain ⟨-, hq2⟩ := pairs_mem ds q hqm
    have hqlt : q.start < q.stop :=
      wf_nonempty (hr ▸ C10.pairs_wf ds hsort : WF r.periods) q (List.mem_of_getElem? hq)
    have hq3 : q.stop ≤ startOfDay l.stop ∨ q.stop = startOfDay f.start := by
      rcases (hmem q.stop).1 hq2 with h1 | h1 | h1
      · exact Or.inr h1.2
      · exact Or.inl (le_of_eq h1.2)
      · exact Or.inl (le_of_lt h1.2.2)
    have hfs : startOfDay f.start = f.start := by unfold startOfDay; rw [hmid]; omega
    have hfp : f.start ≤ p.start := by
      rw [hp] at hpm
      rcases List.mem_cons.1 hpm with rfl | hpm
      · exact le_refl _
      · have h1 := (List.pairwise_cons.1 (wf_pairwise (hp ▸ hw))).1 p hpm
        have h2 := wf_nonempty (hp ▸ hw) f (by simp)
        omega
    have hpd : p.start ∈ ds := by
      rw [hmem]
      rw [hp] at hpm
      rcases List.mem_cons.1 hpm with rfl | hpm'
      · exact Or.inl ⟨rfl, hfs.symm⟩
      · by_cases he : p.start = startOfDay f.start
        · exact Or.inl ⟨rfl, he⟩
        · refine Or.inr (Or.inr ⟨hcal p hpm', by omega, by omega⟩)
    obtain ⟨q', hq', he⟩ := pairs_starts ds hsort p.start q.stop hpd hq2 (by omega)
    exact ⟨q', hr ▸ hq', he⟩

/-! ### FINDING: stale and masked values -/

/-- Day number (0001-01-01 is day 0) as a moment. -/
def day (n : Nat) : DateTime := (n : Int) * 86400 * 1000000

/-- A pressure of 10 from the first day of year 1, 20 from 1 July, until the end of year 3. -/
def changed : TS Fl := ⟨[⟨day 0, day 181⟩, ⟨day 181, day 1095⟩], [some 10, some 20], .BARA⟩

/-- **FINDING.** A change between two reporting dates is lost for good: the pressure below is 20 from 1 July of
the first year on, and the yearly report shows 10 for all three years, although 20 is the value in effect at
the first date of years two and three (and throughout them). -/
theorem C104_stale : ∃ (s r : TS Fl), WF s.periods ∧ s.periods.length = s.values.length ∧
    floatResample s .year true true = .ok r ∧ r.values = [some 10, some 10, some 10] ∧
    ∃ q₂ q₃, r.periods[1]? = some q₂ ∧ r.periods[2]? = some q₃ ∧ InEffect s q₂.start 20 ∧ InEffect s q₃.start 20 := by
  refine ⟨changed, ⟨[⟨day 0, day 365⟩, ⟨day 365, day 730⟩, ⟨day 730, day 1095⟩],
    [some 10, some 10, some 10], .BARA⟩, by decide +kernel, rfl, by decide +kernel, rfl, _, _, rfl, rfl,
    ⟨1, ⟨day 181, day 1095⟩, rfl, rfl, by decide +kernel, by decide +kernel⟩,
    ⟨1, ⟨day 181, day 1095⟩, rfl, rfl, by decide +kernel, by decide +kernel⟩⟩

/-- **FINDING.** A value that could not be computed (NaN) is replaced by the value before it, even when the
periods are exactly the reporting periods: resampling yearly results to yearly results is not the identity. -/
theorem C104_masked : ∃ (s r : TS Fl), WF s.periods ∧ s.periods.length = s.values.length ∧
    floatResample s .year true true = .ok r ∧ r.periods = s.periods ∧ s.values = [some 10, none] ∧
    r.values = [some 10, some 10] := by
  refine ⟨⟨[⟨day 0, day 365⟩, ⟨day 365, day 730⟩], [some 10, none], .BARA⟩,
    ⟨[⟨day 0, day 365⟩, ⟨day 365, day 730⟩], [some 10, some 10], .BARA⟩, by decide +kernel, rfl,
    by decide +kernel, rfl, rfl, rfl⟩

/-- **FINDING.** A series that does not start at midnight shows nothing until it changes on a reporting date,
although reporting starts at that day's midnight. -/
theorem C104_no_midnight (s r : TS Fl) (freq : Frequency) (be : Bool) (hfreq : freq ≠ .none) (hw : WF s.periods)
    (f : Period) (rest : List Period) (hp : s.periods = f :: rest) (hmid : timeOfDay f.start ≠ 0)
    (h : floatResample s freq true be = .ok r) (q : Period) (hq : r.periods[0]? = some q)
    (hqs : q.start ≤ f.start) : r.values[0]? = some none := by
  have hqf : q.start = startOfDay q.start := by
    have hn := (floatResample_parts hfreq h).1
    unfold resamplePeriods at hn
    rw [if_neg hfreq, hp] at hn
    cases hl : (f :: rest).getLast? with
    | none => simp at hl
    | some l =>
      rw [hl, List.head?_cons] at hn
      have hn := Except.ok.inj hn
      have hr : q ∈ Periods.pairs (createStartAndEndDates freq f.start l.stop true be) := by
        have := List.mem_of_getElem? hq
        rw [← hn] at this
        cases hd : createStartAndEndDates freq f.start l.stop true be with
        | nil => rw [hd] at this; simp [Periods.createPeriods] at this
        | cons d ds => rw [hd] at this; simpa [Periods.createPeriods] using this
      have hm := (pairs_mem _ q hr).1
      unfold createStartAndEndDates at hm
      rw [mem_sortedSet] at hm
      have hclear : ∃ x, q.start = clearTime x := by
        cases be <;> simp only [if_true, Bool.false_eq_true, if_false, List.mem_cons, List.mem_map] at hm
        · rcases hm with h1 | ⟨x, -, h1⟩
          · exact ⟨_, h1⟩
          · exact ⟨x, h1.symm⟩
        · rcases hm with h1 | h1 | ⟨x, -, h1⟩
          · exact ⟨_, h1⟩
          · exact ⟨_, h1⟩
          · exact ⟨x, h1.symm⟩
      obtain ⟨x, hx⟩ := hclear
      rw [hx, clearTime_eq]
      unfold startOfDay timeOfDay
      omega
  have hno : ∀ w, ¬ Begins s q.start w := by
    rintro w ⟨i, p, hpi, -, hps⟩
    rw [hp] at hpi hw
    cases i with
    | zero =>
      cases hpi
      apply hmid
      rw [← hps] at hqf
      unfold startOfDay at hqf
      omega
    | succ i =>
      have := sorted_starts hw (Nat.succ_pos i) (rfl : (f :: rest)[0]? = some f) hpi
      omega
  rcases C104_value s r freq true be hfreq hw h 0 q hq with ⟨j, q', w, hj, hq', hb', -, -⟩ | ⟨-, hr⟩
  · have : j = 0 := by omega
    subst this
    rw [hq] at hq'
    cases hq'
    exact absurd hb' (hno w)
  · exact hr

/-! ### Examples -/

/-- A pressure that changes on 1 January is reported as it is. -/
example : floatResample ⟨[⟨day 0, day 365⟩, ⟨day 365, day 1095⟩], [some 10, some 20], .BARA⟩ .year true true =
    .ok ⟨[⟨day 0, day 365⟩, ⟨day 365, day 730⟩, ⟨day 730, day 1095⟩], [some 10, some 20, some 20], .BARA⟩ := by
  decide +kernel

/-- The theorem about the reporting calendar applies to it. -/
example : ∃ (s r : TS Fl), WF s.periods ∧ floatResample s .year true true = .ok r ∧
    r.values[2]? = some (some 20) := by
  obtain ⟨r, hr, -⟩ := C104_succeeds
    ⟨[⟨day 0, day 365⟩, ⟨day 365, day 1095⟩], [some 10, some 20], .BARA⟩ .year true true (by decide) (by simp)
  refine ⟨_, r, by decide +kernel, hr, ?_⟩
  have hr' : r.periods = [⟨day 0, day 365⟩, ⟨day 365, day 730⟩, ⟨day 730, day 1095⟩] := by
    have := (floatResample_parts (by decide) hr).1
    have h2 : resamplePeriods [⟨day 0, day 365⟩, ⟨day 365, day 1095⟩] .year true true =
        .ok [⟨day 0, day 365⟩, ⟨day 365, day 730⟩, ⟨day 730, day 1095⟩] := by decide +kernel
    rw [h2] at this
    exact (Except.ok.inj this).symm
  refine C104_aligned _ r .year true (by decide) (by decide +kernel) ⟨day 0, day 365⟩ [⟨day 365, day 1095⟩] rfl
    (by decide) (by decide) ?_ hr 2 ⟨day 730, day 1095⟩ (by rw [hr']; rfl) 20
    ⟨1, ⟨day 365, day 1095⟩, rfl, rfl, by decide, by decide⟩
  intro p hp
  simp only [List.mem_singleton] at hp
  subst hp
  exact ⟨365, ⟨2, by decide, by decide⟩, by decide⟩

end Verif.C104
