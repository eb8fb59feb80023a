import Verif.Props.C56
import Verif.Model.Pump

/-!
# C57: the pump

A pump accepted by the constructor never fails on a liquid stream: a stream without flow is passed on at suction
pressure without power, any other stream is delivered at its own mass rate with at least the required pressure. The
operating rate is the smallest one allowed by the minimum flow lines, the operating head the smallest one allowed by the
minimum head line; the result is valid exactly when the operating point is inside the chart; power is the hydraulic
power divided by an efficiency between 0 (exclusive) and 1; the speed is the one whose (interpolated) curve passes
through the operating point. The streams on the five connections conserve mass and end at the required pressure.
-/

namespace Verif.C57
open Verif.Time Verif.Table Verif.TableLemmas Verif.Charts Verif.Polyline Verif.Pumps Verif.C56

/-! ## Specification -/

/-- A stream the stream type admits. -/
def Physical (s : Liquid) : Prop := 0 < s.pressure ∧ 0 < s.density ∧ 0 ≤ s.mass

/-- A chart whose curves were accepted by the curve constructor (efficiencies are fractions). -/
def Fractions (ch : Chart) : Prop := ∀ c ∈ ch.curves, ∀ p ∈ c.pts, 0 ≤ p.eff ∧ p.eff ≤ 1

/-- `x` is the smallest number that is at least each of the list. -/
def Smallest (x : ℚ) (l : List ℚ) : Prop := (∀ y ∈ l, y ≤ x) ∧ ∀ z, (∀ y ∈ l, y ≤ z) → x ≤ z

/-- Pressure difference in bar of a liquid column with the given head [J/kg] and density. -/
def pressureOf (head density : ℚ) : ℚ := head * density / 100000

theorem Physical_make {p d m : ℚ} {s : Liquid} : Liquid.make p d m = .ok s ↔ s = ⟨p, d, m⟩ ∧ Physical s := by
  unfold Liquid.make Physical
  constructor
  · intro h
    split at h
    · cases h
    · split at h
      · cases h
      · split at h
        · cases h
        · cases h
          exact ⟨rfl, not_le.mp ‹_›, not_le.mp ‹_›, not_lt.mp ‹_›⟩
  · rintro ⟨rfl, h1, h2, h3⟩
    rw [if_neg (not_le.mpr h2), if_neg (not_lt.mpr h3), if_neg (not_le.mpr h1)]

theorem max_smallest3 (a b c : ℚ) : Smallest (max (max a b) c) [a, b, c] := by
  constructor
  · intro y hy
    simp only [List.mem_cons, List.not_mem_nil, or_false] at hy
    rcases hy with rfl | rfl | rfl
    · exact le_trans (le_max_left _ _) (le_max_left _ _)
    · exact le_trans (le_max_right _ _) (le_max_left _ _)
    · exact le_max_right _ _
  · intro z hz
    exact max_le (max_le (hz _ (by simp)) (hz _ (by simp))) (hz _ (by simp))

theorem max_smallest2 (a b : ℚ) : Smallest (max a b) [a, b] := by
  constructor
  · intro y hy
    simp only [List.mem_cons, List.not_mem_nil, or_false] at hy
    rcases hy with rfl | rfl
    · exact le_max_left _ _
    · exact le_max_right _ _
  · intro z hz
    exact max_le (hz _ (by simp)) (hz _ (by simp))

/-! ## Construction -/

/-- **Construction**: the pump is refused exactly when an efficiency of the chart is not positive or the minimum flow is
below the smallest rate of the chart; without a minimum flow the smallest rate of the chart is used. -/
theorem C57_make (ch : Chart) (minFlow : Option ℚ) :
    Pump.make ch minFlow =
      if (∀ c ∈ ch.curves, ∀ p ∈ c.pts, 0 < p.eff) ∧ (∀ m ∈ minFlow, ∃ c ∈ ch.curves, c.minRate ≤ m) then
        .ok ⟨ch, minFlow.getD ch.minRate, none⟩
      else .error .validation := by
  have hmin : ∀ m, ch.minRate ≤ m ↔ ∃ c ∈ ch.curves, c.minRate ≤ m := by
    intro m
    obtain ⟨h1, h2⟩ := foldl_min_spec (ch.more.map (·.minRate)) ch.low.minRate
    unfold Chart.minRate least Chart.curves
    constructor
    · intro h
      rcases List.mem_cons.mp h1 with h' | h'
      · exact ⟨ch.low, by simp, by rw [← h']; exact h⟩
      · obtain ⟨c, hc, he⟩ := List.mem_map.mp h'
        exact ⟨c, by simp [hc], by rw [he]; exact h⟩
    · rintro ⟨c, hc, h⟩
      refine le_trans (h2 c.minRate ?_) h
      rcases List.mem_cons.mp hc with rfl | hc
      · simp
      · exact List.mem_cons_of_mem _ (List.mem_map.mpr ⟨c, hc, rfl⟩)
  have heff : (ch.curves.any (fun c => c.pts.any fun p => decide (p.eff ≤ 0)) = true) ↔
      ¬ ∀ c ∈ ch.curves, ∀ p ∈ c.pts, 0 < p.eff := by
    rw [List.any_eq_true]
    push Not
    constructor
    · rintro ⟨c, hc, h⟩
      obtain ⟨p, hp, h⟩ := List.any_eq_true.mp h
      exact ⟨c, hc, p, hp, by simpa using h⟩
    · rintro ⟨c, hc, p, hp, h⟩
      exact ⟨c, hc, List.any_eq_true.mpr ⟨p, hp, by simpa using h⟩⟩
  unfold Pump.make
  by_cases he : ∀ c ∈ ch.curves, ∀ p ∈ c.pts, 0 < p.eff
  · rw [if_neg (by rw [heff]; exact not_not.mpr he)]
    cases minFlow with
    | none =>
      simp only [Option.getD_none]
      rw [if_neg (lt_irrefl _), if_pos ⟨he, by simp⟩]
    | some m =>
      simp only [Option.getD_some]
      by_cases hm : ch.minRate ≤ m
      · rw [if_neg (not_lt.mpr hm), if_pos ⟨he, by simpa using (hmin m).mp hm⟩]
      · rw [if_pos (not_le.mp hm), if_neg]
        rintro ⟨-, h⟩
        exact hm ((hmin m).mpr (h m rfl))
  · rw [if_pos (heff.mpr he), if_neg (fun h => he h.1)]

/-- What the constructor leaves behind. -/
def Built (p : Pump) : Prop := Fractions p.chart ∧ ∀ c ∈ p.chart.curves, ∀ q ∈ c.pts, 0 < q.eff

theorem built_of_make {ch : Chart} {m : Option ℚ} {p : Pump} (hf : Fractions ch) (h : Pump.make ch m = .ok p) :
    Built p := by
  rw [C57_make] at h
  split at h
  · rename_i hc
    cases h
    exact ⟨hf, hc.1⟩
  · cases h

/-- Efficiencies used by an accepted pump are positive and at most 1, whatever the geometry `near`. -/
theorem eff_bounds (near : Curve → ℚ → ℚ → ℚ × ℚ) {p : Pump} (h : Built p) (rate head : ℚ) :
    0 < p.chart.effAt near rate head ∧ p.chart.effAt near rate head ≤ 1 := by
  obtain ⟨hf, hp⟩ := h
  refine ⟨?_, (C56_chart_efficiency near p.chart 0 1 rate head hf).2⟩
  -- the smallest efficiency of the chart is positive
  have hex : ∃ lo, 0 < lo ∧ ∀ c ∈ p.chart.curves, ∀ q ∈ c.pts, lo ≤ q.eff := by
    have one : ∀ l : List Pt, (∀ q ∈ l, 0 < q.eff) → ∃ lo, 0 < lo ∧ ∀ q ∈ l, lo ≤ q.eff := by
      intro l
      induction l with
      | nil => intro _; exact ⟨1, by norm_num, by simp⟩
      | cons a l ih =>
        intro h
        obtain ⟨lo, h1, h2⟩ := ih (fun q hq => h q (by simp [hq]))
        refine ⟨min lo a.eff, lt_min h1 (h a (by simp)), fun q hq => ?_⟩
        rcases List.mem_cons.mp hq with rfl | hq
        · exact min_le_right _ _
        · exact le_trans (min_le_left _ _) (h2 q hq)
    have all : ∀ l : List Curve, (∀ c ∈ l, ∀ q ∈ c.pts, 0 < q.eff) → ∃ lo, 0 < lo ∧ ∀ c ∈ l, ∀ q ∈ c.pts, lo ≤ q.eff := by
      intro l
      induction l with
      | nil => intro _; exact ⟨1, by norm_num, by simp⟩
      | cons a l ih =>
        intro h
        obtain ⟨lo, h1, h2⟩ := ih (fun q hq => h q (by simp [hq]))
        obtain ⟨lo', h3, h4⟩ := one a.pts (h a (by simp))
        refine ⟨min lo lo', lt_min h1 h3, fun c hc q hq => ?_⟩
        rcases List.mem_cons.mp hc with rfl | hc
        · exact le_trans (min_le_right _ _) (h4 q hq)
        · exact le_trans (min_le_left _ _) (h2 c hc q hq)
    exact all _ hp
  obtain ⟨lo, h1, h2⟩ := hex
  exact lt_of_lt_of_le h1
    (C56_chart_efficiency near p.chart lo 1 rate head (fun c hc q hq => ⟨h2 c hc q hq, (hf c hc q hq).2⟩)).1

/-! ## Evaluation -/

/-- **Errors**: the only way an evaluation fails is a required pressure that is not positive. -/
theorem C57_errors (near : Curve → ℚ → ℚ → ℚ × ℚ) (p : Pump) (hp : Built p) (s : Liquid) (d : ℚ) :
    (d ≤ 0 → p.evaluate near s d = .error .nonPositivePressure) ∧ (0 < d → ∃ r, p.evaluate near s d = .ok r) := by
  constructor
  · intro h; unfold Pump.evaluate; rw [if_pos h]
  · intro h
    unfold Pump.evaluate
    rw [if_neg (not_le.mpr h)]
    simp only
    split
    · exact ⟨_, rfl⟩
    · rw [if_neg (ne_of_gt (eff_bounds near hp _ _).1)]
      exact ⟨_, rfl⟩

/-- **A pump without flow** does nothing: no power, no head, suction pressure at the outlet, valid. -/
theorem C57_not_running (near : Curve → ℚ → ℚ → ℚ × ℚ) (p : Pump) (s : Liquid) (d : ℚ) (r : Result)
    (h0 : s.mass = 0) (h : p.evaluate near s d = .ok r) :
    r.power = 0 ∧ r.head = 0 ∧ r.rate = 0 ∧ r.recirculation = 0 ∧ r.discharge = s.pressure ∧ r.isValid = true ∧
    r.efficiency = none ∧ r.speed = none := by
  unfold Pump.evaluate at h
  split at h
  · cases h
  · simp only at h
    rw [if_pos (by unfold Liquid.rate; simp [h0])] at h
    cases h
    simp [Result.isValid]

theorem run {near : Curve → ℚ → ℚ → ℚ × ℚ} {p : Pump} {s : Liquid} {d : ℚ} {r : Result} (hs : Physical s)
    (hm : 0 < s.mass) (h : p.evaluate near s d = .ok r) :
    0 < d ∧ r.inlet = s ∧ r.requiredHead = headOf s.pressure d s.density ∧
    r.rate = max (max s.rate p.minFlow) (p.chart.minRateAt r.requiredHead) ∧
    r.head = max r.requiredHead (p.chart.minHeadAt r.rate) ∧ r.efficiency = some (p.chart.effAt near r.rate r.head) ∧
    p.chart.effAt near r.rate r.head ≠ 0 ∧
    r.work = some (r.head / p.chart.effAt near r.rate r.head) ∧
    r.power = r.rate * s.density * (r.head / p.chart.effAt near r.rate r.head) / 3600 / 1000000 ∧
    r.recirculation = r.rate - s.rate ∧ r.requiredDischarge = d ∧
    r.discharge = s.pressure + r.head * s.density / 100000 ∧ r.speed = some (speedAt p.chart r.rate r.head) ∧
    r.status = status r.head (p.chart.maxHeadAt r.rate) r.rate p.chart.maxRate := by
  have hr : 0 < s.rate := div_pos hm hs.2.1
  unfold Pump.evaluate at h
  split at h
  · cases h
  · rename_i hd
    simp only at h
    rw [if_neg (not_le.mpr hr)] at h
    split at h
    · cases h
    · rename_i he
      cases h
      exact ⟨not_le.mp hd, rfl, rfl, rfl, rfl, rfl, he, rfl, rfl, rfl, rfl, rfl, rfl, rfl⟩

/-- **Operating point of a running pump**: the smallest rate that covers the requested rate, the minimum flow and the
minimum flow line at the required head; the smallest head that covers the required head and the minimum head line. The
rest is recirculated; the pressure delivered is at least the required one. -/
theorem C57_operating_point (near : Curve → ℚ → ℚ → ℚ × ℚ) (p : Pump) (s : Liquid) (hs : Physical s) (hm : 0 < s.mass)
    (d : ℚ) (r : Result) (h : p.evaluate near s d = .ok r) :
    Smallest r.rate [s.mass / s.density, p.minFlow, p.chart.minRateAt r.requiredHead] ∧
    Smallest r.head [r.requiredHead, p.chart.minHeadAt r.rate] ∧
    r.rate = s.mass / s.density + r.recirculation ∧ 0 ≤ r.recirculation ∧
    d = s.pressure + pressureOf r.requiredHead s.density ∧ r.discharge = s.pressure + pressureOf r.head s.density ∧
    d ≤ r.discharge ∧ r.discharge - r.chokeDrop = d := by
  obtain ⟨hd, h1, h2, h3, h4, -, -, -, -, h5, h6, h7, -, -⟩ := run hs hm h
  have hden := hs.2.1
  have hreq : d = s.pressure + pressureOf r.requiredHead s.density := by
    rw [h2]; unfold headOf pressureOf
    have : s.density ≠ 0 := ne_of_gt hden
    field_simp; ring
  have hge : d ≤ r.discharge := by
    rw [h7]
    have : r.requiredHead ≤ r.head := by rw [h4]; exact le_max_left _ _
    conv_lhs => rw [hreq]
    unfold pressureOf
    have : r.requiredHead * s.density / 100000 ≤ r.head * s.density / 100000 := by
      apply div_le_div_of_nonneg_right _ (by norm_num)
      exact mul_le_mul_of_nonneg_right this (le_of_lt hden)
    linarith
  refine ⟨?_, ?_, ?_, ?_, hreq, h7, hge, ?_⟩
  · rw [h3]; exact max_smallest3 _ _ _
  · rw [h4]; exact max_smallest2 _ _
  · rw [h5]; unfold Liquid.rate; ring
  · rw [h5, h3]
    have : s.rate ≤ max (max s.rate p.minFlow) (p.chart.minRateAt r.requiredHead) :=
      le_trans (le_max_left _ _) (le_max_left _ _)
    linarith
  · unfold Result.chokeDrop
    rw [h6, max_eq_right (by linarith)]
    ring

/-- **Validity**: the four statuses say exactly whether the operating head is above the maximum head at the operating
rate and whether the operating rate is above the largest rate of the chart. -/
theorem C57_status (near : Curve → ℚ → ℚ → ℚ × ℚ) (p : Pump) (s : Liquid) (hs : Physical s) (hm : 0 < s.mass)
    (d : ℚ) (r : Result) (h : p.evaluate near s d = .ok r) :
    (r.isValid = true ↔ r.head ≤ p.chart.maxHeadAt r.rate ∧ ∃ c ∈ p.chart.curves, r.rate ≤ c.maxRate) ∧
    (r.status = .aboveMaxHead ↔ p.chart.maxHeadAt r.rate < r.head ∧ ∃ c ∈ p.chart.curves, r.rate ≤ c.maxRate) ∧
    (r.status = .aboveMaxRate ↔ r.head ≤ p.chart.maxHeadAt r.rate ∧ ∀ c ∈ p.chart.curves, c.maxRate < r.rate) ∧
    (r.status = .aboveBoth ↔ p.chart.maxHeadAt r.rate < r.head ∧ ∀ c ∈ p.chart.curves, c.maxRate < r.rate) := by
  obtain ⟨-, -, -, -, -, -, -, -, -, -, -, -, -, h1⟩ := run hs hm h
  have hmax : p.chart.maxRate < r.rate ↔ ∀ c ∈ p.chart.curves, c.maxRate < r.rate := by
    obtain ⟨m1, m2⟩ := foldl_max_spec (p.chart.more.map (·.maxRate)) p.chart.low.maxRate
    unfold Chart.maxRate greatest Chart.curves
    constructor
    · intro hlt c hc
      refine lt_of_le_of_lt (m2 c.maxRate ?_) hlt
      rcases List.mem_cons.mp hc with rfl | hc
      · simp
      · exact List.mem_cons_of_mem _ (List.mem_map.mpr ⟨c, hc, rfl⟩)
    · intro hall
      rcases List.mem_cons.mp m1 with h' | h'
      · rw [h']; exact hall _ (by simp)
      · obtain ⟨c, hc, he⟩ := List.mem_map.mp h'
        rw [← he]; exact hall c (by simp [hc])
  have hneg : (∃ c ∈ p.chart.curves, r.rate ≤ c.maxRate) ↔ ¬ p.chart.maxRate < r.rate := by
    rw [hmax]; push Not; rfl
  unfold Result.isValid
  rw [h1, hneg, ← hmax]
  unfold status
  by_cases ha : p.chart.maxHeadAt r.rate < r.head <;> by_cases hb : p.chart.maxRate < r.rate <;>
    simp [ha, hb, not_le.mpr, not_lt.mp]

/-- **Power** is the hydraulic power at the operating point divided by an efficiency in (0, 1]; it is never less than
the hydraulic power of the requested duty when the required head is not negative. -/
theorem C57_power (near : Curve → ℚ → ℚ → ℚ × ℚ) (p : Pump) (hp : Built p) (s : Liquid) (hs : Physical s)
    (hm : 0 < s.mass) (d : ℚ) (r : Result) (h : p.evaluate near s d = .ok r) :
    ∃ e, r.efficiency = some e ∧ 0 < e ∧ e ≤ 1 ∧ r.power * e = r.rate * s.density * r.head / 3600 / 1000000 ∧
      r.work = some (r.head / e) ∧
      (s.pressure ≤ d → s.mass * r.requiredHead / 3600 / 1000000 ≤ r.power ∧ 0 ≤ r.power) := by
  obtain ⟨hd, h1, h2, h3, h4, h5, h6, h7, h8, -⟩ := run hs hm h
  obtain ⟨e1, e2⟩ := eff_bounds near hp r.rate r.head
  generalize p.chart.effAt near r.rate r.head = e at h5 h6 h7 h8 e1 e2
  have hden := hs.2.1
  refine ⟨e, h5, e1, e2, ?_, h7, ?_⟩
  · rw [h8]; field_simp
  · intro hle
    have hreq0 : 0 ≤ r.requiredHead := by
      rw [h2]; unfold headOf
      apply div_nonneg _ (le_of_lt hden)
      nlinarith
    have hhead : r.requiredHead ≤ r.head := by rw [h4]; exact le_max_left _ _
    have hrate : s.rate ≤ r.rate := by rw [h3]; exact le_trans (le_max_left _ _) (le_max_left _ _)
    have hmass : s.mass = s.rate * s.density := by
      unfold Liquid.rate
      have : s.density ≠ 0 := ne_of_gt hden
      field_simp
    have hr0 : 0 < s.rate := div_pos hm hden
    have hwork : r.head ≤ r.head / e := by
      rw [le_div_iff₀ e1]
      nlinarith
    have hmul : s.mass * r.requiredHead ≤ r.rate * s.density * (r.head / e) := by
      rw [hmass]
      apply mul_le_mul
      · exact mul_le_mul_of_nonneg_right hrate (le_of_lt hden)
      · exact le_trans hhead hwork
      · exact hreq0
      · exact mul_nonneg (le_trans (le_of_lt hr0) hrate) (le_of_lt hden)
    have hpw : s.mass * r.requiredHead / 3600 / 1000000 ≤ r.power := by
      rw [h8]
      apply div_le_div_of_nonneg_right _ (by norm_num)
      exact div_le_div_of_nonneg_right hmul (by norm_num)
    refine ⟨hpw, le_trans ?_ hpw⟩
    exact div_nonneg (div_nonneg (mul_nonneg (le_of_lt hm) hreq0) (by norm_num)) (by norm_num)

/-! ## A single-speed pump -/

/-- **Single speed**: a valid operating point lies exactly on the curve, at the speed of the curve; it is valid exactly
when the curve delivers the required head at the operating rate and the rate is not above the curve. -/
theorem C57_single_speed (near : Curve → ℚ → ℚ → ℚ × ℚ) (p : Pump) (c : Curve) (hc : p.chart = ⟨c, []⟩) (s : Liquid)
    (hs : Physical s) (hm : 0 < s.mass) (d : ℚ) (r : Result) (h : p.evaluate near s d = .ok r) :
    (r.isValid = true ↔ r.requiredHead ≤ c.headAt r.rate ∧ r.rate ≤ c.maxRate) ∧
    (r.isValid = true → r.head = c.headAt r.rate) ∧ r.speed = some c.speed := by
  obtain ⟨hd, h1, h2, h3, h4, h5, h6, h7, h8, h9, h10, h11, h12, h13⟩ := run hs hm h
  have hmin : ∀ x, p.chart.minHeadAt x = c.headAt x := by
    intro x
    rw [hc]
    unfold Chart.minHeadAt
    have : ¬ ((Chart.mk c []).low.last.rate < (Chart.mk c []).high.maxRate) := by
      simp [Chart.high, Chart.curves, Curve.maxRate]
    rw [if_neg this]
    rfl
  have hmax : ∀ x, p.chart.maxHeadAt x = c.headAt x := by
    intro x; rw [hc]; rfl
  have hst := (C57_status near p s hs hm d r h).1
  rw [hmax] at hst
  have hcurves : (∃ k ∈ p.chart.curves, r.rate ≤ k.maxRate) ↔ r.rate ≤ c.maxRate := by
    rw [hc]; simp [Chart.curves]
  rw [hcurves] at hst
  rw [hmin] at h4
  refine ⟨?_, ?_, ?_⟩
  · rw [hst, h4]
    constructor
    · rintro ⟨a, b⟩; exact ⟨le_trans (le_max_left _ _) a, b⟩
    · rintro ⟨a, b⟩; exact ⟨max_le a (le_refl _), b⟩
  · intro hv
    have := (hst.mp hv).1
    exact le_antisymm this (by rw [h4]; exact le_max_right _ _)
  · rw [h12, hc]; rfl

/-! ## Speed of a variable-speed pump -/

/-- The speed between two neighbouring curves in proportion to the head: `t` is the common fraction. -/
def OnSpeedLine (l : List (ℚ × ℚ)) (head speed : ℚ) : Prop :=
  ∃ pre a b post, l = pre ++ a :: b :: post ∧ ∃ t : ℚ, 0 ≤ t ∧ t ≤ 1 ∧ head = a.2 + t * (b.2 - a.2) ∧
    speed = a.1 + t * (b.1 - a.1)

theorem scan_spec (head : ℚ) (l : List (ℚ × ℚ)) (a : ℚ × ℚ) (h1 : a.2 < head)
    (h2 : head < ((a :: l).getLast (by simp)).2) : ∃ v, speedScan head (a :: l) = some v ∧ OnSpeedLine (a :: l) head v := by
  induction l generalizing a with
  | nil => simp at h2; linarith
  | cons b l ih =>
    unfold speedScan
    split
    · rename_i hc
      refine ⟨_, rfl, [], a, b, l, rfl, (if b.2 = a.2 then 0 else (head - a.2) / (b.2 - a.2)), ?_, ?_, ?_, rfl⟩
      all_goals
        have hlt : a.2 < b.2 := lt_of_lt_of_le h1 hc.2
        rw [if_neg (ne_of_gt hlt)]
        have hd : 0 < b.2 - a.2 := by linarith
      · exact div_nonneg (by linarith) (le_of_lt hd)
      · rw [div_le_one hd]; linarith [hc.2]
      · field_simp; ring
    · rename_i hc
      have hb : b.2 < head := by
        by_contra hcon
        exact hc ⟨le_of_lt h1, not_lt.mp hcon⟩
      obtain ⟨v, hv, pre, x, y, post, hl, ht⟩ := ih b hb (by rwa [List.getLast_cons (by simp)] at h2)
      exact ⟨v, hv, a :: pre, x, y, post, by rw [hl]; rfl, ht⟩

/-- **Speed**: whenever the operating head lies between the heads of the slowest and the fastest curve at the operating
rate, the reported speed divides two neighbouring speeds in the proportion in which the head divides their heads; below
and above, the slowest and the fastest speed are reported. No shape of the curves is assumed. -/
theorem C57_speed (ch : Chart) (rate head : ℚ) (l : List (ℚ × ℚ)) (a b : ℚ × ℚ)
    (hl : (ch.curves.insertionSort (fun a b => a.speed ≤ b.speed)).map (fun k => (k.speed, k.headAt rate)) = a :: b :: l) :
    (head ≤ a.2 → speedAt ch rate head = a.1) ∧
    (a.2 < head → ((b :: l).getLast (by simp)).2 ≤ head → speedAt ch rate head = ((b :: l).getLast (by simp)).1) ∧
    (a.2 < head → head < ((b :: l).getLast (by simp)).2 → OnSpeedLine (a :: b :: l) head (speedAt ch rate head)) := by
  unfold speedAt
  simp only [hl]
  refine ⟨fun h => by rw [if_pos h], fun h1 h2 => by rw [if_neg (not_le.mpr h1), if_pos h2], fun h1 h2 => ?_⟩
  rw [if_neg (not_le.mpr h1), if_neg (not_le.mpr h2)]
  obtain ⟨v, hv, ho⟩ := scan_spec head (b :: l) a h1 (by rwa [List.getLast_cons (by simp)])
  rw [hv]
  exact ho

/-! ## Streams -/

theorem outlet_positive {near : Curve → ℚ → ℚ → ℚ × ℚ} {p : Pump} {s : Liquid} (hs : Physical s) {d : ℚ} {r : Result}
    (h : p.evaluate near s d = .ok r) : r.inlet = s ∧ r.requiredDischarge = d ∧ 0 < d ∧ 0 < r.discharge := by
  rcases eq_or_lt_of_le hs.2.2 with h0 | hm
  · have h0 := h0.symm
    have hr := (C57_not_running near p s d r h0 h).2.2.2.2.1
    unfold Pump.evaluate at h
    split at h
    · cases h
    · rename_i hd
      simp only at h
      rw [if_pos (by unfold Liquid.rate; simp [h0])] at h
      cases h
      exact ⟨rfl, rfl, not_le.mp hd, hs.1⟩
  · obtain ⟨hd, h1, -, -, -, -, -, -, -, -, h2, -, -, -⟩ := run hs hm h
    have := (C57_operating_point near p s hs hm d r h).2.2.2.2.2.2.1
    exact ⟨h1, h2, hd, lt_of_lt_of_le hd this⟩

/-- **Propagation** needs the discharge pressure to be set; the stream that leaves has the mass rate and the density of
the stream that entered, and the operating discharge pressure. -/
theorem C57_propagate (near : Curve → ℚ → ℚ → ℚ × ℚ) (p : Pump) (hp : Built p) (s : Liquid) (hs : Physical s) :
    (p.discharge = none → p.propagate near s = .error .valueError) ∧
    (∀ d, p.setDischarge d = if d ≤ 0 then .error .nonPositivePressure else .ok { p with discharge := some d }) ∧
    (∀ d, 0 < d → p.discharge = some d → ∃ r, p.evaluate near s d = .ok r ∧
      p.propagate near s = .ok ⟨r.discharge, s.density, s.mass⟩) := by
  refine ⟨fun h => by unfold Pump.propagate; rw [h], fun d => rfl, fun d hd h => ?_⟩
  obtain ⟨r, hr⟩ := (C57_errors near p hp s d).2 hd
  refine ⟨r, hr, ?_⟩
  unfold Pump.propagate
  rw [h]
  simp only [hr, Bind.bind, Except.bind]
  unfold Liquid.withPressure
  exact Physical_make.mpr ⟨rfl, (outlet_positive hs hr).2.2.2, hs.2⟩

/-- **Connection streams** of a running pump: the mixer adds the recirculated mass, the pump raises the pressure, the
splitter takes the recirculated mass out again, and the choke lowers the pressure to the required one. -/
theorem C57_streams (near : Curve → ℚ → ℚ → ℚ × ℚ) (p : Pump) (hp : Built p) (s : Liquid) (hs : Physical s)
    (hm : 0 < s.mass) (d : ℚ) (hd : 0 < d) :
    ∃ r, evaluateOne near p (s, d) = .ok (r, [s,
      ⟨s.pressure, s.density, s.mass + r.recirculation * s.density⟩,
      ⟨r.discharge, s.density, s.mass + r.recirculation * s.density⟩,
      ⟨r.discharge, s.density, s.mass⟩, ⟨d, s.density, s.mass⟩]) ∧
      p.evaluate near s d = .ok r ∧ 0 ≤ r.recirculation ∧ d ≤ r.discharge := by
  obtain ⟨r, hr⟩ := (C57_errors near p hp s d).2 hd
  obtain ⟨-, -, o3, o4, -, -, o7, -⟩ := C57_operating_point near p s hs hm d r hr
  obtain ⟨q1, q2, -, q4⟩ := outlet_positive hs hr
  have hden := hs.2.1
  have hmass : r.rate * s.density = s.mass + r.recirculation * s.density := by
    rw [o3]
    have : s.density ≠ 0 := ne_of_gt hden
    field_simp
  have hpos : 0 ≤ s.mass + r.recirculation * s.density := by
    have := mul_nonneg o4 (le_of_lt hden)
    linarith [hs.2.2]
  refine ⟨r, ?_, hr, o4, o7⟩
  unfold evaluateOne
  simp only [hr, Bind.bind, Except.bind]
  unfold projectStreams
  rw [q1, q2]
  unfold Liquid.withMass Liquid.withPressure
  rw [hmass]
  have e1 : Liquid.make s.pressure s.density (s.mass + r.recirculation * s.density)
      = .ok ⟨s.pressure, s.density, s.mass + r.recirculation * s.density⟩ :=
    Physical_make.mpr ⟨rfl, hs.1, hden, hpos⟩
  have e2 : Liquid.make r.discharge s.density (s.mass + r.recirculation * s.density)
      = .ok ⟨r.discharge, s.density, s.mass + r.recirculation * s.density⟩ :=
    Physical_make.mpr ⟨rfl, q4, hden, hpos⟩
  have e3 : Liquid.make r.discharge s.density s.mass = .ok ⟨r.discharge, s.density, s.mass⟩ :=
    Physical_make.mpr ⟨rfl, q4, hs.2⟩
  have e4 : Liquid.make (min r.discharge d) s.density s.mass = .ok ⟨d, s.density, s.mass⟩ := by
    rw [min_eq_right o7]; exact Physical_make.mpr ⟨rfl, hd, hs.2⟩
  simp only [e1, e2, e3, e4, Bind.bind, Except.bind, Pure.pure, Except.pure]

/-- **Connection streams without flow**: nothing flows, and the pressure after the choke is the smaller one of the
suction pressure and the required pressure. -/
theorem C57_streams_off (near : Curve → ℚ → ℚ → ℚ × ℚ) (p : Pump) (s : Liquid) (hs : Physical s) (h0 : s.mass = 0)
    (d : ℚ) (hd : 0 < d) :
    ∃ r, evaluateOne near p (s, d) = .ok (r, [s, s, s, s, ⟨min s.pressure d, s.density, 0⟩]) := by
  have he : ∃ r, p.evaluate near s d = .ok r := by
    unfold Pump.evaluate
    rw [if_neg (not_le.mpr hd)]
    simp only
    rw [if_pos (by unfold Liquid.rate; simp [h0])]
    exact ⟨_, rfl⟩
  obtain ⟨r, hr⟩ := he
  obtain ⟨n1, n2, n3, n4, n5, -⟩ := C57_not_running near p s d r h0 hr
  obtain ⟨q1, q2, -, -⟩ := outlet_positive hs hr
  refine ⟨r, ?_⟩
  unfold evaluateOne
  simp only [hr, Bind.bind, Except.bind]
  unfold projectStreams
  rw [q1, q2, n3, n5]
  unfold Liquid.withMass Liquid.withPressure
  rw [zero_mul, h0]
  have hs' : Physical ⟨s.pressure, s.density, 0⟩ := ⟨hs.1, hs.2.1, le_refl _⟩
  have es : (⟨s.pressure, s.density, 0⟩ : Liquid) = s := by rw [← h0]
  have e1 : Liquid.make s.pressure s.density 0 = .ok s := by
    rw [← es]; exact Physical_make.mpr ⟨rfl, hs'⟩
  have e2 : Liquid.make (min s.pressure d) s.density 0 = .ok ⟨min s.pressure d, s.density, 0⟩ :=
    Physical_make.mpr ⟨rfl, lt_min hs.1 hd, hs.2.1, le_refl _⟩
  have e3 : Liquid.make s.pressure s.density s.mass = .ok s := by rw [h0]; exact e1
  simp only [e1, e2, e3, Bind.bind, Except.bind, Pure.pure, Except.pure]

/-- **A whole simulation** gives one result per input, in order, and every one is that of the input alone. -/
theorem C57_simulation (near : Curve → ℚ → ℚ → ℚ × ℚ) (p : Pump) (hp : Built p) (inputs : List (Liquid × ℚ))
    (h : ∀ i ∈ inputs, Physical i.1 ∧ 0 < i.2) :
    ∃ rs, evaluateAll near p inputs = .ok rs ∧ inputs.map (evaluateOne near p) = rs.map .ok := by
  unfold evaluateAll
  induction inputs with
  | nil => exact ⟨[], rfl, rfl⟩
  | cons i is ih =>
    obtain ⟨rs, h1, h2⟩ := ih (fun j hj => h j (by simp [hj]))
    obtain ⟨hs, hd⟩ := h i (by simp)
    have he : ∃ r, evaluateOne near p i = .ok r := by
      rcases eq_or_lt_of_le hs.2.2 with h0 | hm
      · obtain ⟨r, hr⟩ := C57_streams_off near p i.1 hs h0.symm i.2 hd
        exact ⟨_, hr⟩
      · obtain ⟨r, hr, -⟩ := C57_streams near p hp i.1 hs hm i.2 hd
        exact ⟨_, hr⟩
    obtain ⟨r, hr⟩ := he
    refine ⟨r :: rs, ?_, by simp [hr, h2]⟩
    rw [List.mapM_cons, hr]
    simp only [Bind.bind, Except.bind, h1]
    rfl

/-- **Inputs from a model file**: accepted exactly when suction pressure and density are positive, the rate is not
negative and, when there is flow, the required pressure is positive; the stream has the given rate. -/
theorem C57_input (rate suction discharge density : ℚ) :
    (∀ i, toOperatingInput rate suction discharge density = .ok i →
      0 < suction ∧ 0 < density ∧ 0 ≤ rate ∧ (0 < rate → 0 < discharge) ∧ Physical i.1 ∧ 0 < i.2 ∧
      i.1 = ⟨suction, density, rate * density / 24⟩ ∧ i.1.rate * 24 = rate ∧ (0 < discharge → i.2 = discharge)) ∧
    (0 < suction → 0 < density → 0 ≤ rate → (0 < rate → 0 < discharge) →
      ∃ i, toOperatingInput rate suction discharge density = .ok i) := by
  constructor
  · intro i h
    unfold toOperatingInput at h
    split at h
    · cases h
    · rename_i h1
      split at h
      · cases h
      · rename_i h2
        unfold Liquid.fromRate at h
        cases hm : Liquid.make suction density (rate * density / 24) with
        | error e => rw [hm] at h; cases h
        | ok s =>
          rw [hm] at h
          obtain ⟨rfl, hph⟩ := Physical_make.mp hm
          have hden := not_le.mp h2
          have hr0 : 0 ≤ rate := by
            have h3 : 0 ≤ rate * density / 24 := hph.2.2
            by_contra hcon
            have := mul_neg_of_neg_of_pos (not_le.mp hcon) hden
            linarith
          have hrate : (Liquid.rate ⟨suction, density, rate * density / 24⟩) * 24 = rate := by
            unfold Liquid.rate
            have : density ≠ 0 := ne_of_gt hden
            simp only
            field_simp
          simp only [Bind.bind, Except.bind] at h
          split at h
          · rename_i hr
            split at h
            · cases h
            · rename_i hd
              cases h
              exact ⟨not_le.mp h1, hden, hr0, fun _ => not_le.mp hd, hph, not_le.mp hd, rfl, hrate, fun _ => rfl⟩
          · rename_i hr
            cases h
            refine ⟨not_le.mp h1, hden, hr0, fun h' => absurd h' hr, hph, ?_, rfl, hrate, fun h' => if_pos h'⟩
            simp only
            split
            · assumption
            · exact not_le.mp h1
  · intro h1 h2 h3 h4
    unfold toOperatingInput
    rw [if_neg (not_le.mpr h1), if_neg (not_le.mpr h2)]
    unfold Liquid.fromRate
    have hm : Liquid.make suction density (rate * density / 24) = .ok ⟨suction, density, rate * density / 24⟩ :=
      Physical_make.mpr ⟨rfl, h1, h2, div_nonneg (mul_nonneg h3 (le_of_lt h2)) (by norm_num)⟩
    rw [hm]
    simp only [Bind.bind, Except.bind]
    split
    · rename_i hr
      rw [if_neg (not_le.mpr (h4 hr))]
      exact ⟨_, rfl⟩
    · exact ⟨_, rfl⟩

/-! ## Examples -/

/-- Nearest curves for the examples: the slow curve below, the fast curve above, at equal distance. -/
def exNear (c : Curve) (rate _head : ℚ) : ℚ × ℚ := if c.speed = 100 then (-1, rate) else (1, rate)

/-- A two-speed pump. -/
def exPump : Pump := ⟨⟨pump3, [fast3]⟩, 250, none⟩

/-- Water at 10 bar, 100 m3/h. -/
def water : Liquid := ⟨10, 1000, 100000⟩

example : Pump.make ⟨pump3, [fast3]⟩ (some 250) = .ok exPump ∧ Pump.make ⟨pump3, [fast3]⟩ (some 150) = .error .validation ∧
    Pump.make ⟨pump3, [fast3]⟩ none = .ok ⟨⟨pump3, [fast3]⟩, 200, none⟩ := by decide +kernel

theorem exPump_fractions : Fractions exPump.chart := by
  intro c hc q hq
  simp only [exPump, Chart.curves, List.mem_cons, List.not_mem_nil, or_false] at hc
  rcases hc with rfl | rfl <;> simp only [pump3, fast3, Curve.pts, List.mem_cons, List.not_mem_nil, or_false] at hq <;>
    rcases hq with rfl | rfl | rfl <;> norm_num

theorem exPump_built : Built exPump :=
  built_of_make (m := some 250) exPump_fractions (by decide +kernel)

example : Physical water ∧ 0 < water.mass := by unfold Physical water; norm_num

/-- 100 m3/h is recirculated up to 260 m3/h (the minimum flow line at 4800 J/kg), at a speed between the two curves. -/
example : (exPump.evaluate exNear water 58).toOption.map (fun r => (r.rate, r.head, r.recirculation, r.isValid)) =
    some (260, 4800, 160, true) := by decide +kernel

example : (exPump.evaluate exNear water 58).toOption.map (fun r => (r.discharge, r.speed.isSome, r.chokeDrop)) =
    some (58, true, 0) := by decide +kernel

/-- A required head below the slow curve: the choke takes the rest. -/
example : (exPump.evaluate exNear water 20).toOption.map (fun r => (r.rate, r.discharge, r.chokeDrop, r.speed)) =
    some (250, 235/6, 115/6, some 100) := by decide +kernel

/-- Above the fast curve the result is flagged. -/
example : (exPump.evaluate exNear water 80).toOption.map (fun r => (r.status, r.isValid)) =
    some (.aboveMaxHead, false) := by decide +kernel

example : (evaluateOne exNear exPump (water, 20)).toOption.map (fun x => x.2.map (fun s => (s.pressure, s.mass))) =
    some [(10, 100000), (10, 250000), (235/6, 250000), (235/6, 100000), (20, 100000)] := by decide +kernel

example : toOperatingInput 2400 10 58 1000 = .ok (water, 58) := by decide +kernel

/-! ## Finding -/

/-- **Finding**: a pump without flow is valid and passes the stream on below the required pressure; a consumer of the
outlet stream cannot tell this from a pump that delivers. -/
theorem C57_off_below_required :
    (evaluateOne exNear exPump (⟨10, 1000, 0⟩, 58)).toOption.map (fun x => (x.1.isValid, x.2.getLast?)) =
      some (true, some ⟨10, 1000, 0⟩) := by decide +kernel

end Verif.C57
