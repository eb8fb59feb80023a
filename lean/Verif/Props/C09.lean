import Verif.Lemmas.Interp
import Verif.Props.C06
import Verif.Props.C08

/-! # C09 — Resampling volumes conserves the total volume -/

namespace Verif.C09
open Verif.Time Verif.Units Verif.Rates Verif.RateLemmas Verif.C05 Verif.Interp

/-- Specification: length of the time two periods have in common. -/
def commonTime (p q : Period) : Int := max 0 (min p.stop q.stop - max p.start q.start)

/-- Specification: the volume that falls inside `q` when the volume of every period is spread evenly over
its period (missing volumes count as zero). -/
def volumeInside (ps : List Period) (vs : List Fl) (q : Period) : ℚ :=
  ((ps.zip vs).map (fun pv => pv.2.getD 0 * (commonTime pv.1 q : ℚ) / ((pv.1.stop - pv.1.start : Int) : ℚ))).sum

theorem volumeInside_eq (ps : List Period) (vs : List Fl) (hp : ∀ p ∈ ps, p.start < p.stop) (a b : Int)
    (hab : a ≤ b) : volumeInside ps vs ⟨a, b⟩ = before ps vs b - before ps vs a := by
  induction ps generalizing vs with
  | nil => simp [volumeInside, before]
  | cons p ps ih =>
    cases vs with
    | nil => simp [volumeInside, before]
    | cons v vs =>
      have hp' := hp p (by simp)
      have ih' := ih vs (fun q hq => hp q (by simp [hq]))
      have e : volumeInside (p :: ps) (v :: vs) ⟨a, b⟩
          = v.getD 0 * (commonTime p ⟨a, b⟩ : ℚ) / ((p.stop - p.start : Int) : ℚ) + volumeInside ps vs ⟨a, b⟩ := by
        simp [volumeInside]
      rw [e, ih', before_cons, before_cons]
      have hc : commonTime p ⟨a, b⟩ = covered p b - covered p a := by
        unfold commonTime covered; simp only; omega
      rw [hc]
      push_cast
      ring

theorem diffFrom_pairs (ps : List Period) (vs : List Fl) (hp : ∀ p ∈ ps, p.start < p.stop) (k : ℚ) (d0 : Int)
    (ds : List Int) (hs : (d0 :: ds).Pairwise (· < ·)) :
    diffFrom (some (before ps vs d0 - k)) (ds.map (fun d => some (before ps vs d - k)))
      = (Periods.pairs (d0 :: ds)).map (fun q => some (volumeInside ps vs q)) := by
  induction ds generalizing d0 with
  | nil => rfl
  | cons d1 ds ih =>
    simp only [List.map_cons, diffFrom, Periods.pairs]
    rw [ih d1 hs.of_cons]
    have : d0 < d1 := (List.pairwise_cons.mp hs).1 d1 (by simp)
    rw [volumeInside_eq ps vs hp d0 d1 (by omega)]
    simp only [Fl.sub, Option.bind_some, Option.map_some, List.cons.injEq, Option.some.injEq, and_true]
    ring

theorem allDates_pairs (a b : Int) (ds : List Int) :
    Periods.allDates (Periods.pairs (a :: b :: ds)) = .ok (a :: b :: ds) := by
  have h1 : ∀ (ds : List Int) (a b : Int),
      Periods.startDates (Periods.pairs (a :: b :: ds)) = (a :: b :: ds).dropLast := by
    intro ds
    induction ds with
    | nil => intro a b; rfl
    | cons c ds ih =>
      intro a b
      have := ih b c
      simp only [Periods.pairs, Periods.startDates, List.map_cons] at this ⊢
      rw [this]; rfl
  have h2 : ∀ (ds : List Int) (a b : Int),
      (Periods.endDates (Periods.pairs (a :: b :: ds))).getLast? = some ((a :: b :: ds).getLast (by simp)) := by
    intro ds
    induction ds with
    | nil => intro a b; rfl
    | cons c ds ih =>
      intro a b
      have := ih b c
      simp only [Periods.pairs, Periods.endDates, List.map_cons] at this ⊢
      rw [List.getLast?_cons_cons, this]
      simp
  unfold Periods.allDates
  rw [h2, h1]
  simp only
  rw [List.dropLast_append_getLast]

theorem interpTime_eq {p : Period} {ps : List Period} {v : Fl} {vs : List Fl} (hw : WF (p :: ps))
    (hl : ps.length = vs.length) (d : Int) (hd : p.start ≤ d) :
    interpTime (knownPoints (p.start :: (p :: ps).map (·.stop)) (some 0 :: computeCumulative (v :: vs))) d
      = some (before (p :: ps) (v :: vs) d) := by
  have : (some 0 :: computeCumulative (v :: vs) : List Fl) = ((0 : ℚ) :: cumQ 0 (v :: vs)).map some := by
    simp [computeCumulative, nancumsumFrom_eq]
  rw [this, knownPoints_some]
  simp only [List.zip_cons_cons, interpTime]
  rw [if_neg (by omega), interpFrom_eq ps vs p v 0 d hw hl hd]
  simp

/-- The reporting dates after the first one lie after the start of the series. -/
theorem dates_after_start (freq : Frequency) (s e : Int) (bs be : Bool) (hse : s < e) (hs : 0 ≤ s) (d0 d1 : Int)
    (ds : List Int) (h : createStartAndEndDates freq s e bs be = d0 :: d1 :: ds) :
    (∀ d ∈ d1 :: ds, s < d) ∧ (bs = false → s < d0) ∧ (bs = true → d0 = clearTime s) := by
  have hmem : ∀ x, x ∈ (d0 :: d1 :: ds) ↔ (bs = true ∧ x = clearTime s) ∨ (be = true ∧ x = clearTime e) ∨
      x ∈ (dateRange (s + usPerDay) (e - usPerDay) freq).map clearTime := by
    intro x
    rw [← h]
    unfold createStartAndEndDates
    rw [mem_sortedSet]
    cases bs <;> cases be <;> grind
  have hrange : ∀ x ∈ (dateRange (s + usPerDay) (e - usPerDay) freq).map clearTime,
      s < x ∧ clearTime s < x ∧ clearTime s < clearTime e := by
    intro x hx
    unfold dateRange at hx
    simp only [List.map_map, List.mem_map, List.mem_filter, List.mem_range, Bool.and_eq_true,
        decide_eq_true_eq, Function.comp_apply] at hx
    obtain ⟨k, ⟨hk1, ⟨hk2, hk3⟩, hk4⟩, rfl⟩ := hx
    unfold clearTime dayNumber usPerDay at *
    omega
  have hsort : (d0 :: d1 :: ds).Pairwise (· < ·) := by
    rw [← h]; unfold createStartAndEndDates; exact pairwise_sortedSet _
  have h01 : ∀ d ∈ d1 :: ds, d0 < d := (List.pairwise_cons.mp hsort).1
  have hcs : clearTime s ≤ s ∧ s < clearTime s + usPerDay ∧ clearTime s ≤ clearTime e ∧
      (clearTime s < clearTime e → s < clearTime e) := by
    unfold clearTime usPerDay; omega
  have hcase : ∀ x ∈ d0 :: d1 :: ds, x = clearTime s ∨ (s < x ∧ clearTime s < x) := by
    intro x hx
    rcases (hmem x).mp hx with ⟨_, rfl⟩ | ⟨_, rfl⟩ | hx'
    · exact Or.inl rfl
    · by_cases hh : clearTime s < clearTime e
      · exact Or.inr ⟨hcs.2.2.2 hh, hh⟩
      · left; omega
    · exact Or.inr ⟨(hrange x hx').1, (hrange x hx').2.1⟩
  have hlow : ∀ d ∈ d1 :: ds, s < d := by
    intro d hd
    have hlt := h01 d hd
    rcases hcase d (by simp only [List.mem_cons] at hd ⊢; tauto) with rfl | hx
    · rcases hcase d0 (by simp) with h0 | h0 <;> omega
    · exact hx.1
  refine ⟨hlow, ?_, ?_⟩
  · intro hb
    rcases hcase d0 (by simp) with h0 | h0
    · -- d0 would be the end on the same day, but then there is no second date
      exfalso
      rcases (hmem d0).mp (by simp) with ⟨hh, _⟩ | ⟨_, he⟩ | hx'
      · rw [hb] at hh; cases hh
      · rcases (hmem d1).mp (by simp) with ⟨hh, _⟩ | ⟨_, he1⟩ | hx1
        · rw [hb] at hh; cases hh
        · have := h01 d1 (by simp); omega
        · have := (hrange d1 hx1).2.2; omega
      · have := (hrange d0 hx').2.1; omega
    · exact h0.1
  · intro hb
    have hin : clearTime s ∈ d0 :: d1 :: ds := (hmem _).mpr (Or.inl ⟨hb, rfl⟩)
    rcases List.mem_cons.mp hin with e | e
    · exact e.symm
    · have := hlow _ e; omega

/-- **C09, every new period receives exactly the volume that falls inside it.** For every well-formed volume
series, every frequency other than NONE and every choice of including start and end dates: if there is at
least one reporting period, resampling succeeds and the value of each reporting period is the volume that
falls inside it. -/
theorem C09_volume_inside (s : TS Fl) (freq : Frequency) (incStart incEnd : Bool) (hfreq : freq ≠ .none)
    (hlen : s.periods.length = s.values.length) (hw : WF s.periods) (hpos : ∀ p ∈ s.periods, 0 ≤ p.start)
    (nps : Periods) (hn : resamplePeriods s.periods freq incStart incEnd = .ok nps) (hne : nps ≠ []) :
    volResample s freq incStart incEnd
      = .ok ⟨nps, nps.map (fun q => some (volumeInside s.periods s.values q)), s.unit⟩ := by
  obtain ⟨qs, vs, u⟩ := s
  simp only at hlen hw hpos hn ⊢
  have hper := wf_nonempty hw
  cases qs with
  | nil => simp [resamplePeriods, hfreq] at hn
  | cons p ps =>
  cases vs with
  | nil => simp at hlen
  | cons v vs =>
  have hlen' : ps.length = vs.length := by simpa using hlen
  have hn0 := hn
  unfold resamplePeriods at hn
  rw [if_neg hfreq, List.head?_cons, List.getLast?_eq_some_getLast (by simp)] at hn
  simp only [Except.ok.injEq] at hn
  generalize hdates : createStartAndEndDates freq p.start ((p :: ps).getLast (by simp)).stop incStart incEnd = dates at hn
  have hsort : dates.Pairwise (· < ·) := by
    rw [← hdates]; unfold createStartAndEndDates; exact pairwise_sortedSet _
  have hse : p.start < ((p :: ps).getLast (by simp)).stop := by
    have h1 := hper _ (List.getLast_mem (l := p :: ps) (by simp))
    have h2 := hper p (by simp)
    rcases List.mem_cons.mp (List.getLast_mem (l := p :: ps) (by simp)) with e | e
    · rw [e]; exact h2
    · have := wf_head_le hw _ e; omega
  -- at least two dates
  match dates, hn, hsort, hdates with
  | [], hn, _, _ => simp [Periods.createPeriods] at hn; exact absurd hn (by simpa using hne.symm)
  | [d], hn, _, _ => simp [Periods.createPeriods, Periods.pairs] at hn; exact absurd hn (by simpa using hne.symm)
  | d0 :: d1 :: ds, hn, hsort, hdates =>
  have hnps : nps = Periods.pairs (d0 :: d1 :: ds) := by
    rw [← hn]; simp [Periods.createPeriods]
  obtain ⟨hafter, hbf, hbt⟩ := dates_after_start freq _ _ incStart incEnd hse (hpos p (by simp)) d0 d1 ds hdates
  obtain ⟨g, hg⟩ : ∃ g, g = interpTime (knownPoints (p.start :: (p :: ps).map (·.stop))
      (some 0 :: computeCumulative (v :: vs))) := ⟨_, rfl⟩
  have hint : ∀ d, p.start ≤ d → g d = some (before (p :: ps) (v :: vs) d) :=
    fun d hd => by rw [hg]; exact interpTime_eq hw hlen' d hd
  have htail : (d1 :: ds).map g = (d1 :: ds).map (fun d => some (before (p :: ps) (v :: vs) d)) := by
    apply List.map_congr_left
    intro d hd
    exact hint d (by have := hafter d hd; omega)
  have hpl : (Periods.pairs (d0 :: d1 :: ds)).length = (d1 :: ds).length := by
    have : ∀ (ds : List Int) (a : Int), (Periods.pairs (a :: ds)).length = ds.length := by
      intro ds
      induction ds with
      | nil => intro a; rfl
      | cons b ds ih => intro a; simp [Periods.pairs, ih b]
    exact this _ _
  have hcl : (p :: ps).length = (computeCumulative (v :: vs)).length := by
    unfold computeCumulative; rw [C08.nancumsumFrom_length]; simp [hlen']
  have hcum : cumulative (⟨p :: ps, v :: vs, u⟩ : TS Fl) = .ok ⟨p :: ps, computeCumulative (v :: vs), u⟩ := by
    unfold cumulative TS.make; rw [if_pos hcl]
  have hr : ∃ r', dropStart incStart ((d0 :: d1 :: ds).map g) = .ok r' ∧ r'.length = (d1 :: ds).length ∧
      diffFrom (some 0) r' = (Periods.pairs (d0 :: d1 :: ds)).map
        (fun q => some (volumeInside (p :: ps) (v :: vs) q)) := by
    cases hinc : incStart with
    | true =>
      refine ⟨(d1 :: ds).map (fun d => some (before (p :: ps) (v :: vs) d)), ?_, by simp, ?_⟩
      · simp only [dropStart, if_true, List.map_cons, List.tail_cons]
        rw [← List.map_cons, htail, List.map_cons]
      · have hz : before (p :: ps) (v :: vs) d0 = 0 := by
          apply before_early
          intro q hq
          have h0 : d0 ≤ p.start := by
            rw [hbt hinc]; unfold clearTime usPerDay; omega
          rcases List.mem_cons.mp hq with rfl | hq
          · exact h0
          · have := wf_head_le hw q hq
            have := hper p (by simp)
            omega
        have := diffFrom_pairs (p :: ps) (v :: vs) hper 0 d0 (d1 :: ds) hsort
        rw [hz] at this
        simpa using this
    | false =>
      refine ⟨(d1 :: ds).map (fun d => some (before (p :: ps) (v :: vs) d - before (p :: ps) (v :: vs) d0)), ?_,
        by simp, ?_⟩
      · have h0 : p.start ≤ d0 := by have := hbf hinc; omega
        rw [List.map_cons, htail, hint d0 h0]
        simp [dropStart, Fl.sub]
      · have := diffFrom_pairs (p :: ps) (v :: vs) hper (before (p :: ps) (v :: vs) d0) d0 (d1 :: ds) hsort
        rw [sub_self] at this
        exact this
  obtain ⟨r', hr1, hr2, hr3⟩ := hr
  have hcr : cumResample ⟨p :: ps, computeCumulative (v :: vs), u⟩ freq incStart incEnd = .ok ⟨nps, r', u⟩ := by
    unfold cumResample
    rw [if_neg hfreq]
    simp only [hn0, Bind.bind, Except.bind]
    rw [hnps, allDates_pairs]
    simp only [cumAtDates, wf_allDates hw, Bind.bind, Except.bind, Pure.pure, Except.pure, ← hg, hr1]
    unfold TS.make
    rw [if_pos (by rw [hpl, hr2])]
  unfold volResample
  simp only [hcum, Bind.bind, Except.bind, hcr]
  unfold cumToVolumes TS.make
  simp only [hr3, hnps]
  rw [if_pos (by simp)]

theorem sum_volumeInside (ps : List Period) (vs : List Fl) (hp : ∀ p ∈ ps, p.start < p.stop) (d0 : Int)
    (ds : List Int) (hs : (d0 :: ds).Pairwise (· < ·)) :
    ((Periods.pairs (d0 :: ds)).map (volumeInside ps vs)).sum
      = before ps vs ((d0 :: ds).getLast (by simp)) - before ps vs d0 := by
  induction ds generalizing d0 with
  | nil => simp [Periods.pairs]
  | cons d1 ds ih =>
    simp only [Periods.pairs, List.map_cons, List.sum_cons]
    rw [ih d1 hs.of_cons]
    have : d0 < d1 := (List.pairwise_cons.mp hs).1 d1 (by simp)
    rw [volumeInside_eq ps vs hp d0 d1 (by omega), List.getLast_cons (l := d1 :: ds) (by simp)]
    ring

/-- **C09, the total is conserved.** With start and end dates included and a series ending at midnight, the
resampled volumes add up to the original total. -/
theorem C09_total_conserved (s : TS Fl) (freq : Frequency) (hfreq : freq ≠ .none)
    (hlen : s.periods.length = s.values.length) (hw : WF s.periods) (hpos : ∀ p ∈ s.periods, 0 ≤ p.start)
    (l : Period) (hl : s.periods.getLast? = some l) (hmid : l.stop % (86400 * 1000000) = 0) :
    ∃ r, volResample s freq true true = .ok r ∧
      (r.values.map (fun v => v.getD 0)).sum = (s.values.map (fun v => v.getD 0)).sum ∧ none ∉ r.values := by
  obtain ⟨qs, vs, u⟩ := s
  simp only at hlen hw hpos hl ⊢
  have hper := wf_nonempty hw
  cases qs with
  | nil => simp at hl
  | cons p ps =>
  have hll : (p :: ps).getLast (by simp) = l := by
    rw [List.getLast?_eq_some_getLast (by simp)] at hl; simpa using hl
  have hlast : ∀ q ∈ p :: ps, q.stop ≤ l.stop := by
    intro q hq
    have : ∀ (ps : List Period) (p : Period), WF (p :: ps) → ∀ q ∈ p :: ps, q.stop ≤ ((p :: ps).getLast (by simp)).stop := by
      intro ps
      induction ps with
      | nil => intro p _ q hq; simp at hq; simp [hq]
      | cons r ps ih =>
        intro p h q hq
        rw [List.getLast_cons (by simp)]
        obtain ⟨h1, h2, h3⟩ := h
        rcases List.mem_cons.mp hq with rfl | hq
        · have := ih r h3 r (by simp)
          have := wf_nonempty h3 r (by simp)
          omega
        · exact ih r h3 q hq
    rw [← hll]; exact this ps p hw q hq
  have hse : p.start < l.stop := by
    have h2 := hper p (by simp)
    have := hlast p (by simp)
    omega
  obtain ⟨nps, hn, -, hcov⟩ := C06.C06_partition (p :: ps) freq hfreq p l rfl hl (hpos p (by simp)) hse
  have hn' := hn
  unfold resamplePeriods at hn'
  rw [if_neg hfreq, List.head?_cons, hl] at hn'
  simp only [Except.ok.injEq] at hn'
  have hsort : (createStartAndEndDates freq p.start l.stop true true).Pairwise (· < ·) := by
    unfold createStartAndEndDates; exact pairwise_sortedSet _
  have hmemS : clearTime p.start ∈ createStartAndEndDates freq p.start l.stop true true := by
    unfold createStartAndEndDates; rw [mem_sortedSet]; simp
  have hmemE : clearTime l.stop ∈ createStartAndEndDates freq p.start l.stop true true := by
    unfold createStartAndEndDates; rw [mem_sortedSet]; simp
  have hmid' : clearTime l.stop = l.stop := by unfold clearTime usPerDay; omega
  have hmin : clearTime p.start < l.stop := by
    have : clearTime p.start ≤ p.start := by unfold clearTime usPerDay; omega
    omega
  generalize hdates : createStartAndEndDates freq p.start l.stop true true = dates at hn' hsort hmemS hmemE
  match dates, hn', hsort, hmemS, hmemE, hdates with
  | [], _, _, hm, _, _ => simp at hm
  | [d], _, _, hm1, hm2, _ =>
    simp at hm1 hm2; omega
  | d0 :: d1 :: ds, hn', hsort, hmemS, hmemE, hdates =>
  have hnps : nps = Periods.pairs (d0 :: d1 :: ds) := by
    rw [← hn']; simp [Periods.createPeriods]
  have hne : nps ≠ [] := by rw [hnps]; simp [Periods.pairs]
  have := C09_volume_inside ⟨p :: ps, vs, u⟩ freq true true hfreq hlen hw hpos nps hn hne
  refine ⟨_, this, ?_, ?_⟩
  · simp only [List.map_map]
    have e : (nps.map ((fun v => Option.getD v 0) ∘ fun q => some (volumeInside (p :: ps) vs q)))
        = nps.map (volumeInside (p :: ps) vs) := by
      apply List.map_congr_left; intro q _; rfl
    rw [e, hnps, sum_volumeInside (p :: ps) vs hper d0 (d1 :: ds) hsort]
    obtain ⟨-, -, hbt⟩ := dates_after_start freq _ _ true true hse (hpos p (by simp)) d0 d1 ds hdates
    have hd0 : d0 ≤ p.start := by rw [hbt rfl]; unfold clearTime usPerDay; omega
    have hz : before (p :: ps) vs d0 = 0 := by
      apply before_early
      intro q hq
      rcases List.mem_cons.mp hq with rfl | hq
      · exact hd0
      · have := wf_head_le hw q hq
        have := hper p (by simp)
        omega
    have hge : l.stop ≤ (d0 :: d1 :: ds).getLast (by simp) := by
      rw [← hmid']
      have : ∀ (l : List Int) (hne : l ≠ []), l.Pairwise (· < ·) → ∀ x ∈ l, x ≤ l.getLast hne := by
        intro l
        induction l with
        | nil => intro h; exact absurd rfl h
        | cons a l ih =>
          intro _ hp x hx
          cases l with
          | nil => simp at hx; simp [hx]
          | cons b l =>
            rw [List.getLast_cons (by simp)]
            rcases List.mem_cons.mp hx with rfl | hx
            · have h1 := (List.pairwise_cons.mp hp).1 b (by simp)
              have h2 := ih (by simp) hp.of_cons b (by simp)
              omega
            · exact ih (by simp) hp.of_cons x hx
      exact this _ _ hsort _ hmemE
    rw [hz, before_late (p :: ps) vs _ hlen (fun q hq => ⟨hper q hq, by have := hlast q hq; omega⟩)]
    simp
  · simp

/-- **C09, no reporting period.** If start and end fall on the same day there is no reporting period and
resampling raises IndexError instead of returning wrong numbers. -/
theorem C09_no_reporting_period (s : TS Fl) (freq : Frequency) (incStart incEnd : Bool) (hfreq : freq ≠ .none)
    (hlen : s.periods.length = s.values.length)
    (hn : resamplePeriods s.periods freq incStart incEnd = .ok []) :
    volResample s freq incStart incEnd = .error .indexError := by
  obtain ⟨qs, vs, u⟩ := s
  simp only at hlen hn
  unfold volResample cumulative TS.make computeCumulative
  rw [if_pos (by rw [C08.nancumsumFrom_length]; exact hlen)]
  simp only [Bind.bind, Except.bind]
  unfold cumResample
  rw [if_neg hfreq]
  simp only [hn, Bind.bind, Except.bind]
  rfl

/-- **C09, frequency NONE** leaves the volumes as they are (missing values become zero). -/
theorem C09_none (s : TS Fl) (bs be : Bool) (hlen : s.periods.length = s.values.length) :
    ∃ r, volResample s .none bs be = .ok r ∧ r.periods = s.periods ∧ r.unit = s.unit ∧
      r.values = s.values.map (fun v => some (v.getD 0)) := by
  obtain ⟨c, r, hc, hr, h1, h2, h3, -⟩ := C08.C08_volumes_round_trip s hlen
  refine ⟨r, ?_, h1, h2, h3⟩
  unfold volResample
  simp [hc, Bind.bind, Except.bind, cumResample, hr]

/-- Non-vacuity: two 20-day periods with volumes 40 and 20, starting 11 January of year 1, resampled monthly:
21 days in January, 19 in February. -/
example : volResample ⟨[⟨10 * usPerDay, 30 * usPerDay⟩, ⟨30 * usPerDay, 50 * usPerDay⟩], [some 40, some 20], .KILO⟩
      .month true true
    = .ok ⟨[⟨10 * usPerDay, 31 * usPerDay⟩, ⟨31 * usPerDay, 50 * usPerDay⟩], [some 41, some 19], .KILO⟩ := by
  decide +kernel

end Verif.C09
