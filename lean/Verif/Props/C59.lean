import Verif.Props.C58

/-!
# C59: the pump of a consumer function

The pump model used by consumer functions evaluates every period on its own; it agrees with the process pump on power
and status; a head margin accepts exactly the heads up to that margin above the chart and never changes anything else;
the largest rate it announces is one that it can pump.
-/

namespace Verif.C59
open Verif.Time Verif.Table Verif.TableLemmas Verif.Charts Verif.Polyline Verif.Pumps Verif.C56 Verif.C57 Verif.C58

/-! ## Specification -/

/-- The addition of 1e-15 changes nothing: the limits of the chart are 16 or more in their units (m3/h and J/kg). -/
structure Normal (ch : Chart) : Prop where
  flow : ∀ c ∈ ch.curves, ∀ p ∈ c.pts, 16 ≤ p.rate
  head : ∀ c ∈ ch.curves, ∀ p ∈ c.pts, 16 ≤ p.head

/-- What an evaluation with flow has to satisfy: operating rate `r`, head before the margin `h0`, head used `h`. -/
structure Duty (ch : Chart) (rate required r h0 : ℚ) : Prop where
  flow : Smallest r [rate, ch.minRateAt required]
  head : Smallest h0 [required, ch.minHeadAt r]

theorem plusEps_normal {x : ℚ} (h : 16 ≤ x) : plusEps x = x := by
  unfold plusEps
  rw [if_pos (le_trans h (le_abs_self x))]

theorem high_mem (ch : Chart) : ch.high ∈ ch.curves := List.getLast_mem _

theorem low_mem (ch : Chart) : ch.low ∈ ch.curves := by simp [Chart.curves]

theorem minRate_normal {ch : Chart} (h : Normal ch) (x : ℚ) : 16 ≤ ch.minRateAt x := by
  have l := h.flow _ (low_mem ch) _ (first_mem _)
  have u := h.flow _ (high_mem ch) _ (first_mem _)
  have := interp_bounds (rows := [(ch.low.first.head, ch.low.first.rate), (ch.high.first.head, ch.high.first.rate)])
    (below := ch.low.first.rate) (above := ch.high.first.rate) (x := x) (lo := 16)
    (hi := max ch.low.first.rate ch.high.first.rate) (by simp) (by simp [l, u]) ⟨l, le_max_left _ _⟩ ⟨u, le_max_right _ _⟩
  exact this.1

theorem minHead_normal {ch : Chart} (h : Normal ch) (x : ℚ) : 16 ≤ ch.minHeadAt x := by
  have all := h.head _ (low_mem ch)
  have u := h.head _ (high_mem ch) _ (last_mem _)
  have bound : ∃ hi, (∀ p ∈ ch.low.pts, p.head ≤ hi) ∧ ch.high.last.head ≤ hi := by
    have : ∀ l : List Pt, ∃ hi, ∀ p ∈ l, p.head ≤ hi := by
      intro l
      induction l with
      | nil => exact ⟨0, by simp⟩
      | cons a l ih =>
        obtain ⟨hi, h1⟩ := ih
        refine ⟨max hi a.head, fun p hp => ?_⟩
        rcases List.mem_cons.mp hp with rfl | hp'
        · exact le_max_right _ _
        · exact le_trans (h1 p hp') (le_max_left _ _)
    obtain ⟨hi, h1⟩ := this ch.low.pts
    exact ⟨max hi ch.high.last.head, fun p hp => le_trans (h1 p hp) (le_max_left _ _), le_max_right _ _⟩
  obtain ⟨hi, b1, b2⟩ := bound
  have f := all _ (first_mem ch.low)
  have l := all _ (last_mem ch.low)
  unfold Chart.minHeadAt
  split
  · refine (interp_bounds (lo := 16) (hi := hi) (by simp) ?_ ⟨f, b1 _ (first_mem _)⟩ ⟨u, b2⟩).1
    intro r hr
    rcases List.mem_append.mp hr with hr | hr
    · obtain ⟨p, hp, rfl⟩ := List.mem_map.mp hr
      exact ⟨all p hp, b1 p hp⟩
    · rw [List.mem_singleton] at hr
      subst hr
      exact ⟨u, b2⟩
  · refine (interp_bounds (lo := 16) (hi := hi) (by simp [Curve.pts]) ?_ ⟨f, b1 _ (first_mem _)⟩ ⟨l, b1 _ (last_mem _)⟩).1
    intro r hr
    obtain ⟨p, hp, rfl⟩ := List.mem_map.mp hr
    exact ⟨all p hp, b1 p hp⟩

/-- The efficiency that is applied. -/
theorem eff_perfect {near : Curve → ℚ → ℚ → ℚ × ℚ} {ch : Chart} (h : ch.perfect = true) (r x : ℚ) :
    ch.effAt near r x = 1 := by unfold Chart.effAt; rw [if_pos h]

theorem smallest_unique {x y : ℚ} {l : List ℚ} (h1 : Smallest x l) (h2 : Smallest y l) : x = y :=
  le_antisymm (h1.2 y h2.1) (h2.2 x h1.1)

/-! ## One period -/

/-- **Off**: without flow no power, no head and no failure. -/
theorem C59_off (near : Curve → ℚ → ℚ → ℚ × ℚ) (p : Legacy) (rate suction discharge density : ℚ) (h : rate ≤ 0) :
    p.simulate near rate suction discharge density = (some 0, 0, .noFailure) := by
  unfold Legacy.simulate; rw [if_pos h]

/-- **Running**: the operating point is the smallest one allowed by the minimum lines, and a head above the chart by no
more than the margin is put on the chart; head and rate used decide the status and the power; the head reported is the
required one. -/
theorem C59_running (near : Curve → ℚ → ℚ → ℚ × ℚ) (p : Legacy) (hn : Normal p.chart) (rate suction discharge density : ℚ)
    (h : 0 < rate) :
    ∃ r h0 h, Duty p.chart (rate / 24) ((discharge - suction) * 100000 / density) r h0 ∧
      ((0 < p.margin ∧ p.chart.maxHeadAt r < h0 ∧ h0 ≤ p.chart.maxHeadAt r + p.margin) → h = p.chart.maxHeadAt r) ∧
      (¬ (0 < p.margin ∧ p.chart.maxHeadAt r < h0 ∧ h0 ≤ p.chart.maxHeadAt r + p.margin) → h = h0) ∧
      (p.simulate near rate suction discharge density).2.1 = (discharge - suction) * 100000 / density ∧
      (p.simulate near rate suction discharge density).2.2 = status h (p.chart.maxHeadAt r) r p.chart.maxRate ∧
      (p.chart.effAt near r h ≠ 0 → ∃ power, (p.simulate near rate suction discharge density).1 = some power ∧
        power * p.chart.effAt near r h = density * h * r / 3600 / 1000000) := by
  have hsim : p.simulate near rate suction discharge density =
      (let H := headOf suction discharge density
       let r := max (rate / 24) (p.chart.minRateAt H)
       let h := adjustHead (max H (p.chart.minHeadAt r)) (p.chart.maxHeadAt r) p.margin
       (if p.chart.perfect then some (density * h * r / 3600 / 1000000 / 1)
        else if p.chart.effAt near r h = 0 then none
        else some (density * h * r / 3600 / 1000000 / 1 / p.chart.effAt near r h),
        H, status h (p.chart.maxHeadAt r) r p.chart.maxRate)) := by
    unfold Legacy.simulate
    rw [if_neg (not_le.mpr h)]
    simp only
    rw [plusEps_normal (minRate_normal hn _), plusEps_normal (minHead_normal hn _)]
  simp only at hsim
  have hH : (discharge - suction) * 100000 / density = headOf suction discharge density := rfl
  rw [hH, hsim]
  generalize headOf suction discharge density = H
  refine ⟨max (rate / 24) (p.chart.minRateAt H), max H (p.chart.minHeadAt (max (rate / 24) (p.chart.minRateAt H))),
    adjustHead (max H (p.chart.minHeadAt (max (rate / 24) (p.chart.minRateAt H))))
      (p.chart.maxHeadAt (max (rate / 24) (p.chart.minRateAt H))) p.margin,
    ⟨max_smallest2 _ _, max_smallest2 _ _⟩, fun hm => ?_, fun hm => ?_, rfl, rfl, fun he => ?_⟩
  · unfold adjustHead
    rw [if_pos ⟨ne_of_gt hm.1, hm.2⟩]
  · unfold adjustHead
    rw [if_neg]
    rintro ⟨a, b, c⟩
    apply hm
    refine ⟨?_, b, c⟩
    rcases lt_trichotomy p.margin 0 with h' | h' | h'
    · linarith
    · exact absurd h' a
    · exact h'
  · simp only
    by_cases hp : p.chart.perfect = true
    · rw [if_pos hp]
      refine ⟨_, rfl, ?_⟩
      rw [eff_perfect hp]
      ring
    · rw [if_neg hp, if_neg he]
      refine ⟨_, rfl, ?_⟩
      field_simp

/-- **Head margin**: the head part of the failure disappears exactly for heads up to the margin above the chart. -/
theorem C59_margin (h0 maxHead margin : ℚ) (hm : 0 ≤ margin) :
    (adjustHead h0 maxHead margin ≤ maxHead ↔ h0 ≤ maxHead + margin) ∧
    (h0 ≤ maxHead ∨ maxHead + margin < h0 → adjustHead h0 maxHead margin = h0) := by
  unfold adjustHead
  constructor
  · split
    · rename_i h; simp [h.2.2]
    · rename_i h
      constructor
      · intro h'; linarith
      · intro h'
        by_contra hcon
        exact h ⟨by rintro rfl; linarith, not_le.mp hcon, h'⟩
  · intro h
    rw [if_neg]
    rintro ⟨-, h1, h2⟩
    rcases h with h | h <;> linarith

/-! ## Agreement with the process pump -/

theorem chart_min_le (ch : Chart) (x : ℚ) : ch.minRate ≤ ch.minRateAt x := by
  have hmin : ∀ c ∈ ch.curves, ch.minRate ≤ c.first.rate := by
    intro c hc
    obtain ⟨-, h2⟩ := foldl_min_spec (ch.more.map (·.minRate)) ch.low.minRate
    refine h2 c.minRate ?_
    rcases List.mem_cons.mp hc with rfl | hc
    · simp
    · exact List.mem_cons_of_mem _ (List.mem_map.mpr ⟨c, hc, rfl⟩)
  have l := hmin _ (low_mem ch)
  have u := hmin _ (high_mem ch)
  have := interp_bounds (rows := [(ch.low.first.head, ch.low.first.rate), (ch.high.first.head, ch.high.first.rate)])
    (below := ch.low.first.rate) (above := ch.high.first.rate) (x := x) (lo := ch.minRate)
    (hi := max ch.low.first.rate ch.high.first.rate) (by simp) (by simp [l, u]) ⟨l, le_max_left _ _⟩ ⟨u, le_max_right _ _⟩
  exact this.1

/-- **Agreement**: for a running pump without head margin the two implementations report the same power and the same
status, and the head reported by the legacy pump is the required head of the process pump. -/
theorem C59_agreement (near : Curve → ℚ → ℚ → ℚ × ℚ) (ch : Chart) (hn : Normal ch) (p : Pump)
    (hp : Pump.make ch none = .ok p) (hf : Fractions ch) (rate suction discharge density : ℚ) (hr : 0 < rate)
    (hs : 0 < suction) (hd : 0 < discharge) (hden : 0 < density) :
    ∃ i r, toOperatingInput rate suction discharge density = .ok i ∧ p.evaluate near i.1 i.2 = .ok r ∧
      (Legacy.mk ch 0).simulate near rate suction discharge density = (some r.power, r.requiredHead, r.status) := by
  have hb := built_of_make hf hp
  obtain ⟨hin1, hin2⟩ := C57_input rate suction discharge density
  obtain ⟨i, hi⟩ := hin2 hs hden (le_of_lt hr) (fun _ => hd)
  obtain ⟨-, -, -, -, hph, hi2, hi1, hrate, hdd⟩ := hin1 i hi
  obtain ⟨r, hr'⟩ := (C57_errors near p hb i.1 i.2).2 hi2
  refine ⟨i, r, hi, hr', ?_⟩
  have hm : 0 < i.1.mass := by
    rw [hi1]
    exact div_pos (mul_pos hr hden) (by norm_num)
  obtain ⟨-, h1, h2, h3, h4, h5, h6, h7, h8, -, -, -, -, h9⟩ := run hph hm hr'
  have hpc : p.chart = ch ∧ p.minFlow = ch.minRate := by
    rw [C57_make] at hp
    split at hp
    · cases hp; exact ⟨rfl, rfl⟩
    · cases hp
  obtain ⟨hpc, hpm⟩ := hpc
  rw [hpc] at h3 h4 h6 h8 h9
  rw [hpm] at h3
  have hd1 : i.1.density = density := by rw [hi1]
  have hs1 : i.1.pressure = suction := by rw [hi1]
  have hrate' : i.1.rate = rate / 24 := by linarith
  have hreq : r.requiredHead = headOf suction discharge density := by
    rw [h2, hd1, hs1, hdd hd]
  have hop : r.rate = max (rate / 24) (ch.minRateAt (headOf suction discharge density)) := by
    rw [h3, hreq, hrate', max_assoc, max_eq_right (chart_min_le ch _)]
  have hhead : r.head = max (headOf suction discharge density) (ch.minHeadAt r.rate) := by rw [h4, hreq]
  unfold Legacy.simulate
  rw [if_neg (not_le.mpr hr)]
  simp only
  rw [plusEps_normal (minRate_normal hn _), ← hop, plusEps_normal (minHead_normal hn _), ← hhead]
  have hadj : adjustHead r.head (ch.maxHeadAt r.rate) 0 = r.head := by unfold adjustHead; simp
  rw [hadj, hreq, h9, h8, hd1]
  refine Prod.ext ?_ rfl
  simp only
  split
  · rename_i hperf
    rw [eff_perfect hperf]
    congr 1; ring
  · congr 1
    field_simp

/-! ## Several periods -/

/-- **Arrays**: arrays of unequal length are refused; otherwise every period is evaluated on its own, in order. -/
theorem C59_periods (near : Curve → ℚ → ℚ → ℚ × ℚ) (p : Legacy) (rates suctions discharges densities : List ℚ) :
    (¬ (rates.length = suctions.length ∧ rates.length = discharges.length ∧ rates.length = densities.length) →
      p.evaluate near rates suctions discharges densities = .error .assertion) ∧
    (rates.length = suctions.length → rates.length = discharges.length → rates.length = densities.length →
      ∃ out, p.evaluate near rates suctions discharges densities = .ok out ∧
        out.power.length = rates.length ∧ out.head.length = rates.length ∧ out.status.length = rates.length ∧
        out.isValid.length = rates.length ∧
        ∀ t (h1 : t < rates.length) (h2 : t < suctions.length) (h3 : t < discharges.length) (h4 : t < densities.length),
          out.power[t]? = some (p.simulate near rates[t] suctions[t] discharges[t] densities[t]).1 ∧
          out.head[t]? = some (p.simulate near rates[t] suctions[t] discharges[t] densities[t]).2.1 ∧
          out.status[t]? = some (p.simulate near rates[t] suctions[t] discharges[t] densities[t]).2.2 ∧
          (out.isValid[t]? = some true ↔
            (p.simulate near rates[t] suctions[t] discharges[t] densities[t]).2.2 = .noFailure)) := by
  constructor
  · intro h
    unfold Legacy.evaluate
    rw [if_pos]
    rintro ⟨a, b, c⟩
    exact h ⟨a, by omega, by omega⟩
  · intro a b c
    unfold Legacy.evaluate
    rw [if_neg (by rw [not_not]; exact ⟨a, by omega, by omega⟩)]
    refine ⟨_, rfl, ?_, ?_, ?_, ?_, ?_⟩
    · simp; omega
    · simp; omega
    · simp; omega
    · simp [LegacyResult.isValid]; omega
    · intro t h1 h2 h3 h4
      have hz : (rates.zip (suctions.zip (discharges.zip densities)))[t]? =
          some (rates[t], suctions[t], discharges[t], densities[t]) := by
        rw [List.getElem?_eq_getElem (by simp; omega)]
        simp
      simp only [LegacyResult.isValid, List.getElem?_map, hz, Option.map_some]
      simp

/-! ## The largest rate -/

/-- **Largest rate**: for a required head on the fastest curve, the announced rate is pumped without failure, and no
larger rate is: a rate above gets the head failure, or the rate failure beyond the end of the chart. -/
theorem C59_max_rate (near : Curve → ℚ → ℚ → ℚ × ℚ) (p : Legacy) (hn : Normal p.chart) (ho : Ordered p.chart)
    (hi : Increasing p.chart.high) (hd : Drops p.chart.high) (hm : p.margin = 0) (suction discharge density : ℚ)
    (hrate : p.chart.low.first.rate ≤ p.chart.high.first.rate)
    (h1 : p.chart.high.last.head ≤ (discharge - suction) * 100000 / density)
    (h2 : (discharge - suction) * 100000 / density ≤ p.chart.high.first.head) :
    (p.simulate near (p.maxRate suction discharge density) suction discharge density).2.2 = .noFailure ∧
    (∀ x, p.maxRate suction discharge density < x → x / 24 ≤ p.chart.high.maxRate →
      (p.simulate near x suction discharge density).2.2 = .aboveMaxHead) ∧
    (∀ x, p.chart.maxRate < x / 24 → (p.simulate near x suction discharge density).2.2 ≠ .noFailure) := by
  set H := (discharge - suction) * 100000 / density with hH
  obtain ⟨-, -, -, hmax⟩ := C58_maximum_rate p.chart hi hd H
  obtain ⟨hinv, hlo, hhi⟩ := hmax h1 h2
  -- the minimum flow line is left of the fastest curve
  have hflow : p.chart.minRateAt H ≤ p.chart.high.first.rate := by
    have := interp_bounds (rows := [(p.chart.low.first.head, p.chart.low.first.rate), (p.chart.high.first.head, p.chart.high.first.rate)])
      (below := p.chart.low.first.rate) (above := p.chart.high.first.rate) (x := H) (lo := p.chart.low.first.rate)
      (hi := p.chart.high.first.rate) (by simp) (by simp [hrate]) ⟨le_refl _, hrate⟩ ⟨hrate, le_refl _⟩
    exact this.2
  have hchart : ∀ c ∈ p.chart.curves, c.maxRate ≤ p.chart.maxRate := by
    intro c hc
    obtain ⟨-, h2⟩ := foldl_max_spec (p.chart.more.map (·.maxRate)) p.chart.low.maxRate
    refine h2 c.maxRate ?_
    rcases List.mem_cons.mp hc with rfl | hc
    · simp
    · exact List.mem_cons_of_mem _ (List.mem_map.mpr ⟨c, hc, rfl⟩)
  have hhm := hchart _ (high_mem p.chart)
  -- operating point at any rate to the right of the minimum flow line
  have hsim : ∀ x, 0 < x → p.chart.minRateAt H ≤ x / 24 → (p.simulate near x suction discharge density).2.2 =
      status (max H (p.chart.minHeadAt (x / 24))) (p.chart.maxHeadAt (x / 24)) (x / 24) p.chart.maxRate := by
    intro x hx hle
    unfold Legacy.simulate
    rw [if_neg (not_le.mpr hx)]
    simp only
    rw [plusEps_normal (minRate_normal hn _), plusEps_normal (minHead_normal hn _), hm]
    rw [show headOf suction discharge density = H from rfl, max_eq_left hle]
    unfold adjustHead
    simp
  have h24 : p.maxRate suction discharge density / 24 = p.chart.maxRateAt H := by
    change p.chart.maxRateAt H * 24 / 24 = _
    ring
  have hpos : 16 ≤ p.chart.maxRateAt H := by
    have := hn.flow _ (high_mem p.chart) _ (first_mem _)
    exact le_trans this hlo
  have hmaxle := (C58_valid_region p.chart ho).1
  have hxpos : ∀ x, p.chart.maxRateAt H ≤ x / 24 → 0 < x := by intro x hx; linarith
  refine ⟨?_, ?_, ?_⟩
  · rw [hsim _ (hxpos _ (le_of_eq h24.symm)) (by rw [h24]; exact le_trans hflow hlo), h24]
    unfold status
    have a : ¬ p.chart.maxHeadAt (p.chart.maxRateAt H) < max H (p.chart.minHeadAt (p.chart.maxRateAt H)) :=
      not_lt.mpr (max_le (le_of_eq hinv.symm) (hmaxle _))
    have b : ¬ p.chart.maxRate < p.chart.maxRateAt H := not_lt.mpr (le_trans hhi hhm)
    rw [if_neg (fun h => a h.1), if_neg a, if_neg b]
  · intro x hx hxm
    have hx24 : p.chart.maxRateAt H < x / 24 := by rw [← h24]; linarith
    rw [hsim _ (hxpos _ (le_of_lt hx24)) (le_trans (le_trans hflow hlo) (le_of_lt hx24))]
    have hlt : p.chart.maxHeadAt (x / 24) < H := by
      change p.chart.high.headAt (x / 24) < H
      change p.chart.high.headAt (p.chart.maxRateAt H) = H at hinv
      have hle := C56_antitone p.chart.high hi (drops_falls hd) _ _ (le_of_lt hx24)
      rw [hinv] at hle
      rcases eq_or_lt_of_le hle with he | hlt
      · exfalso
        have e1 := (C56_inverse p.chart.high hi hd).1 _ hlo hhi
        have e2 := (C56_inverse p.chart.high hi hd).1 (x / 24) (le_trans hlo (le_of_lt hx24)) hxm
        rw [hinv] at e1
        rw [he] at e2
        linarith
      · exact hlt
    unfold status
    have a : p.chart.maxHeadAt (x / 24) < max H (p.chart.minHeadAt (x / 24)) := lt_of_lt_of_le hlt (le_max_left _ _)
    have b : ¬ p.chart.maxRate < x / 24 := not_lt.mpr (le_trans hxm hhm)
    rw [if_neg (fun h => b h.2), if_pos a]
  · intro x hx
    have hx24 : p.chart.maxRateAt H ≤ x / 24 := le_of_lt (lt_of_le_of_lt (le_trans hhi hhm) hx)
    rw [hsim _ (hxpos _ hx24) (le_trans (le_trans hflow hlo) hx24)]
    unfold status
    split
    · simp
    · split
      · simp
      · simp

/-- **Largest rate of the process pump**: for a required head on the fastest curve, and a minimum flow that does not exceed
it, a flow on the fastest curve is pumped without failure exactly when its rate per day is at most the announced one. -/
theorem C59_process_max_rate (near : Curve → ℚ → ℚ → ℚ × ℚ) (p : Pump) (ho : Ordered p.chart)
    (hi : Increasing p.chart.high) (hd : Drops p.chart.high) (s : Liquid) (hs : Physical s) (hm : 0 < s.mass)
    (d : ℚ) (r : Result) (h : p.evaluate near s d = .ok r)
    (hrate : p.chart.low.first.rate ≤ p.chart.high.first.rate)
    (hmin : p.minFlow * 24 ≤ p.maxRatePerDay s.pressure d s.density)
    (h1 : p.chart.high.last.head ≤ r.requiredHead) (h2 : r.requiredHead ≤ p.chart.high.first.head)
    (hend : s.mass / s.density ≤ p.chart.high.maxRate) :
    r.isValid = true ↔ s.mass / s.density * 24 ≤ p.maxRatePerDay s.pressure d s.density := by
  obtain ⟨-, -, hH, hr, -⟩ := run hs hm h
  rw [(C58_valid_region p.chart ho).2 near p s d r rfl hs hm h]
  unfold Pump.maxRatePerDay at hmin ⊢
  rw [← hH] at hmin ⊢
  change r.rate = max (max (s.mass / s.density) _) _ at hr
  generalize s.mass / s.density = q at hr hend ⊢
  generalize r.requiredHead = H at *
  obtain ⟨-, -, -, hmax⟩ := C58_maximum_rate p.chart hi hd H
  obtain ⟨hinv, hlo, hhi⟩ := hmax h1 h2
  change p.chart.high.headAt (p.chart.maxRateAt H) = H at hinv
  have hflow : p.chart.minRateAt H ≤ p.chart.high.first.rate := by
    have := interp_bounds (rows := [(p.chart.low.first.head, p.chart.low.first.rate), (p.chart.high.first.head, p.chart.high.first.rate)])
      (below := p.chart.low.first.rate) (above := p.chart.high.first.rate) (x := H) (lo := p.chart.low.first.rate)
      (hi := p.chart.high.first.rate) (by simp) (by simp [hrate]) ⟨le_refl _, hrate⟩ ⟨hrate, le_refl _⟩
    exact this.2
  have hflow' : p.chart.minRateAt H ≤ p.chart.maxRateAt H := le_trans hflow hlo
  constructor
  · rintro ⟨hv, -⟩
    by_contra hcon
    have hq : p.chart.maxRateAt H < q := by linarith
    have hqr : q ≤ r.rate := by rw [hr]; exact le_trans (le_max_left _ _) (le_max_left _ _)
    have hrq : r.rate = q := by
      rw [hr]
      exact le_antisymm (max_le (max_le le_rfl (by linarith)) (by linarith)) (le_trans (le_max_left _ _) (le_max_left _ _))
    rw [hrq] at hv
    have hle := C56_antitone p.chart.high hi (drops_falls hd) _ _ (le_of_lt hq)
    rw [hinv] at hle
    have e1 := (C56_inverse p.chart.high hi hd).1 _ hlo hhi
    have e2 := (C56_inverse p.chart.high hi hd).1 q (le_trans hlo (le_of_lt hq)) hend
    rw [hinv] at e1
    rw [le_antisymm hle hv] at e2
    linarith
  · intro hq
    have hle : r.rate ≤ p.chart.maxRateAt H := by
      rw [hr]
      exact max_le (max_le (by linarith) (by linarith)) hflow'
    refine ⟨?_, p.chart.high, high_mem _, le_trans hle hhi⟩
    have := C56_antitone p.chart.high hi (drops_falls hd) _ _ hle
    rwa [hinv] at this

/-! ## Examples -/

/-- 50 bar at 1000 kg/m3 is 5000 J/kg, which the fastest curve reaches at 800 m3/h, 19200 m3/day. -/
example : exPump.maxRatePerDay 10 60 1000 = 19200 ∧ exPump.minFlow * 24 ≤ 19200 ∧
    (exPump.evaluate exNear ⟨10, 1000, 800000⟩ 60).toOption.map (·.isValid) = some true ∧
    (exPump.evaluate exNear ⟨10, 1000, 801000⟩ 60).toOption.map (·.isValid) = some false := by decide +kernel

/-- The two-speed chart of C57 without a head margin. -/
def exLegacy : Legacy := ⟨exPump.chart, 0⟩

theorem exNormal : Normal exLegacy.chart := by
  constructor <;> decide +kernel

/-- 50 bar at 1000 kg/m3 is 5000 J/kg, which the fastest curve reaches at 800 m3/h. -/
example : exLegacy.maxRate 10 60 1000 = 19200 ∧ (exLegacy.simulate exNear 19200 10 60 1000).2.2 = .noFailure ∧
    (exLegacy.simulate exNear 19201 10 60 1000).2.2 = .aboveMaxHead := by decide +kernel

example : Ordered exLegacy.chart ∧ exLegacy.chart.low.first.rate ≤ exLegacy.chart.high.first.rate :=
  ⟨exPump_ordered, by decide +kernel⟩

example : (exLegacy.evaluate exNear [2400, 0] [10, 10] [58, 58] [1000, 1000]).toOption.map (·.isValid) = some [true, true] ∧
    exLegacy.evaluate exNear [2400] [10, 10] [58, 58] [1000, 1000] = .error .assertion := by decide +kernel

/-! ## Findings -/

/-- **Finding**: the reported operational head is the head required by the pressures, not the head the power was
computed for. Below the slowest curve the two differ: power is paid for more than twice the reported head. -/
theorem C59_reported_head : ∃ r h0, Duty exLegacy.chart (7200 / 24) ((20 - 10) * 100000 / 1000) r h0 ∧
    (exLegacy.simulate exNear 7200 10 20 1000).2.1 = 1000 ∧ h0 = 8500 / 3 := by
  refine ⟨300, 8500 / 3, ⟨?_, ?_⟩, by decide +kernel, rfl⟩
  · have h : exLegacy.chart.minRateAt ((20 - 10) * 100000 / 1000) = 200 := by decide +kernel
    rw [h]
    have := max_smallest2 (7200 / 24) (200 : ℚ)
    rwa [show max (7200 / 24 : ℚ) 200 = 300 by norm_num] at this
  · have h : exLegacy.chart.minHeadAt 300 = 8500 / 3 := by decide +kernel
    rw [h]
    have := max_smallest2 ((20 - 10) * 100000 / 1000) (8500 / 3 : ℚ)
    rwa [show max ((20 - 10) * 100000 / 1000 : ℚ) (8500 / 3) = 8500 / 3 by norm_num] at this

/-- **Finding**: for a required head above the chart the announced largest rate is positive, and pumping it fails. -/
theorem C59_max_rate_above_chart : 0 < exLegacy.maxRate 10 90 1000 ∧
    (exLegacy.simulate exNear (exLegacy.maxRate 10 90 1000) 10 90 1000).2.2 = .aboveMaxHead := by decide +kernel

/-- **Finding**: near zero the added 1e-15 is visible; a flat curve at low head has its only admissible point refused:
with a chart whose single curve has head 1 J/kg everywhere, every rate within the chart is above the maximum head. -/
theorem C59_epsilon : (Legacy.mk ⟨⟨100, ⟨20, 1, 1⟩, [⟨50, 1, 1⟩]⟩, []⟩ 0).simulate exNear 720 0 1 100000 =
    (some (100000 * (1 + 1 / 1000000000000000) * 30 / 3600 / 1000000), 1, .aboveMaxHead) := by decide +kernel

end Verif.C59
