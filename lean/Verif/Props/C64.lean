import Verif.Props.C63
import Verif.Props.C27

/-!
# C64: the generic compressor chart made from input points

The chart covers every input point (choking allowed), is not larger than needed by more than fixed factors, and the
search for it always ends.
-/

namespace Verif.C64
open Verif.Time Verif.Table Verif.TableLemmas Verif.Charts Verif.Polyline Verif.Search Verif.C27
open Verif.C56 Verif.C57 Verif.C58 Verif.C61 Verif.C63

/-! ## Specification -/

/-- The largest of the numbers. -/
def Largest (x : ℚ) (l : List ℚ) : Prop := x ∈ l ∧ ∀ y ∈ l, y ≤ x

/-- Every point can be operated on the chart, with recirculation and choking. -/
def Covers (ch : Chart) (pts : List (ℚ × ℚ)) : Prop := ∀ p ∈ pts, (ch.capacity p.1 p.2 true).exceeds = false

/-! ## The minimum flow line without choking -/

/-- Above the first point of the slowest curve choking makes no difference to the minimum flow line. -/
theorem no_choke_flow (ch : Chart) (hi : Increasing ch.low) (hd : Drops ch.low) (h : ch.low.first.head < ch.high.first.head)
    (head : ℚ) (hh : ch.low.first.head ≤ head) : ch.minRateNoChokeAt head = ch.minRateAt head := by
  obtain ⟨-, m2, m3⟩ := C58_minimum_flow ch h head
  have hfun : Functional (ch.low.pts.reverse.map fun p => (p.head, p.rate)) := by
    have := swap_functional hi hd
    intro r hr s hs
    rw [List.map_reverse, List.mem_reverse] at hr hs
    exact this r hr s hs
  have hmax : ∀ r ∈ (ch.low.pts.reverse.map fun p => (p.head, p.rate)), r.1 ≤ ch.low.first.head := by
    intro r hr
    rw [List.map_reverse, List.mem_reverse] at hr
    obtain ⟨p, hp, rfl⟩ := List.mem_map.mp hr
    exact head_le_first (drops_falls hd) p hp
  have hlt : ∀ r ∈ (ch.low.pts.reverse.map fun p => (p.head, p.rate)), r.1 < ch.high.first.head :=
    fun r hr => lt_of_le_of_lt (hmax r hr) h
  have hmem : (ch.low.first.head, ch.low.first.rate) ∈ (ch.low.pts.reverse.map fun p => (p.head, p.rate)) := by
    rw [List.map_reverse, List.mem_reverse]
    exact List.mem_map.mpr ⟨_, first_mem _, rfl⟩
  rcases lt_or_ge ch.high.first.head head with h2 | h2
  · rw [m2 (le_of_lt h2)]
    apply interp_above (by simp)
    intro r hr
    rcases List.mem_append.mp hr with hr' | hr'
    · exact lt_trans (hlt r hr') h2
    · rw [List.mem_singleton] at hr'
      rw [hr']; exact h2
  · have s1 := interp_append_right (e := (ch.high.first.head, ch.high.first.rate)) hfun hlt hmem hmax
      (below := ch.low.last.rate) (above := ch.high.first.rate) hh h2
    obtain ⟨-, -, q1⟩ := s1
    obtain ⟨-, -, q2⟩ := m3 hh h2
    have hpos : 0 < ch.high.first.head - ch.low.first.head := by linarith
    have : (ch.minRateNoChokeAt head - ch.minRateAt head) * (ch.high.first.head - ch.low.first.head) = 0 := by
      unfold Chart.minRateNoChokeAt
      simp only at q1
      linarith
    rcases mul_eq_zero.mp this with h0 | h0 <;> linarith

/-! ## The search -/

/-- What the scales do: the largest rate and head of the points are those of the unified fastest curve. -/
structure Scaled (s : Fitting) : Prop where
  rate : 0 < s.scaleRate
  head : 0 < s.scaleHead
  rates : ∀ p ∈ s.pts, p.1 ≤ s.scaleRate * 1.323778851
  heads : ∀ p ∈ s.pts, p.2 ≤ s.scaleHead * 1.289869247
  attained : ∃ p ∈ s.pts, p.1 = s.scaleRate * 1.323778851

section
variable {s : Fitting} (hs : Scaled s)
include hs

theorem walled {R H : ℚ} (hR : 0 < R) (hH : 0 < H) : Walled (s.chart R H) :=
  C63_shape _ _ _ (mul_pos hR hs.rate) (mul_pos hH hs.head)

theorem reach {R H : ℚ} (hR : 0 < R) : (s.chart R H).low.maxRate < (s.chart R H).high.maxRate := by
  obtain ⟨-, c2, -, c4⟩ := corners (R * s.scaleRate) (H * s.scaleHead) s.eff
  have := mul_pos hR hs.rate
  unfold Curve.maxRate Fitting.chart
  rw [c2, c4]
  simp only
  nlinarith

/-- No point above the fastest curve: every point is covered. -/
theorem covers_of {R H : ℚ} (hR : 1 ≤ R) (hH : 1 ≤ H) (h : s.above R H = false) : Covers (s.chart R H) s.pts := by
  intro p hp
  have hw := walled hs (by linarith : 0 < R) (by linarith : 0 < H)
  obtain ⟨c1, c2, c3, c4⟩ := corners (R * s.scaleRate) (H * s.scaleHead) s.eff
  have hsr := hs.rate
  have hsh := hs.head
  have hRs := mul_pos (by linarith : 0 < R) hsr
  have hHs := mul_pos (by linarith : 0 < H) hsh
  have hRs' : s.scaleRate ≤ R * s.scaleRate := by nlinarith
  have hHs' : s.scaleHead ≤ H * s.scaleHead := by nlinarith
  have pr := hs.rates p hp
  have ph := hs.heads p hp
  rw [C61_capacity _ hw.toOrdinary]
  set ch := s.chart R H with hch
  have c1' : ch.low.first = ⟨R * s.scaleRate * 0.498902665, H * s.scaleHead * 0.558852888, s.eff⟩ := c1
  have c3' : ch.high.first = ⟨R * s.scaleRate * 0.878913798, H * s.scaleHead * 1.289869247, s.eff⟩ := c3
  have c4' : ch.high.last = ⟨R * s.scaleRate * 1.323778851, H * s.scaleHead * 0.809949924, s.eff⟩ := c4
  have hfirst : ch.low.first.head < ch.high.first.head := by rw [c1', c3']; simp only; nlinarith
  have hflow : ch.minRateAt p.2 ≤ ch.high.first.rate := by
    refine (interp_bounds (lo := ch.low.first.rate) (by simp) ?_ ⟨le_refl _, ?_⟩ ⟨?_, le_refl _⟩).2
    · intro r hr
      simp only [List.mem_cons, List.not_mem_nil, or_false] at hr
      rcases hr with rfl | rfl
      · exact ⟨le_refl _, by rw [c1', c3']; simp only; nlinarith⟩
      · exact ⟨by rw [c1', c3']; simp only; nlinarith, le_refl _⟩
    · rw [c1', c3']; simp only; nlinarith
    · rw [c1', c3']; simp only; nlinarith
  have hmaxR : ch.high.maxRate = R * s.scaleRate * 1.323778851 := by unfold Curve.maxRate; rw [c4']
  have hfl : ch.high.first.rate ≤ ch.high.maxRate := by rw [hmaxR, c3']; simp only; nlinarith
  have hra : (ch.capacity p.1 p.2 true).rate = max (ch.minRateAt p.2) p.1 := rfl
  have hhe : (ch.capacity p.1 p.2 true).head = max (ch.minHeadAt (max (ch.minRateAt p.2) p.1)) p.2 := rfl
  unfold Inside
  rw [hra, hhe]
  set a := max (ch.minRateAt p.2) p.1 with ha
  have ha_le : a ≤ ch.high.maxRate := max_le (le_trans hflow hfl) (by rw [hmaxR]; nlinarith)
  refine ⟨ha_le, max_le ((C58_valid_region ch hw.toOrdered).1 a) ?_⟩
  have hrng := high_range hw.toOrdinary a
  rcases le_or_gt p.2 ch.high.last.head with q1 | q1
  · exact le_trans q1 hrng.1
  · -- above the end of the fastest curve: use that the point is not above the curve
    have q2 : p.2 ≤ ch.high.first.head := by rw [c3']; simp only; nlinarith
    have hnc : ch.minRateNoChokeAt p.2 = ch.minRateAt p.2 := by
      refine no_choke_flow ch hw.low ?_ hfirst p.2 ?_
      · have := (unit_walled s.eff).2.2.1
        rw [hch]
        unfold Fitting.chart
        rw [generic_low]
        exact stretch_drops hHs this
      · rw [c4'] at q1
        rw [c1']
        simp only at q1 ⊢
        nlinarith
    have hwall := (C61_stone_wall ch hw p.2).2.2 (le_of_lt q1)
    by_contra hcon
    have hcon := not_le.mp hcon
    have hex : ch.high.rateAt p.2 < a := by
      by_contra h'
      have := (right_iff_above hw.toOrdinary (le_of_lt q1) q2).mp (not_lt.mp h')
      linarith [this.2]
    have hnot := List.any_eq_false.mp h p hp
    have hre : (ch.capacity p.1 p.2 false).rateExceeds = true := by
      unfold Chart.capacity Chart.maximumRate
      simp only [Bool.false_eq_true, if_false, decide_eq_true_eq]
      rw [hwall, hnc]
      exact hex
    have hhd : (ch.capacity p.1 p.2 false).headExceeds = decide (ch.high.headAt p.1 < p.2) := rfl
    rw [← hch, hre, hhd] at hnot
    simp only [Bool.true_and, decide_eq_true_eq, not_lt] at hnot
    rcases max_choice (ch.minRateAt p.2) p.1 with hm | hm
    · -- recirculation: to the left of the fastest curve
      have : a ≤ ch.high.minRate := by rw [ha, hm]; exact hflow
      rw [headAt_left hw.increasing this] at hcon
      linarith
    · rw [ha, hm] at hcon
      linarith

/-- A rate so large that every point is to the left of the fastest curve. -/
theorem above_end {R H : ℚ} (hR : 1.507 ≤ R) (hH : 1 ≤ H) : s.above R H = false := by
  unfold Fitting.above anyAbove
  rw [List.any_eq_false]
  intro p hp
  have hw := walled hs (by linarith : 0 < R) (by linarith : 0 < H)
  obtain ⟨-, -, c3, -⟩ := corners (R * s.scaleRate) (H * s.scaleHead) s.eff
  have hsr := hs.rate
  have hsh := hs.head
  have pr := hs.rates p hp
  have ph := hs.heads p hp
  have hleft : p.1 ≤ (s.chart R H).high.minRate := by
    change p.1 ≤ (genericChart (R * s.scaleRate) (H * s.scaleHead) s.eff).high.first.rate
    rw [c3]; simp only; nlinarith
  have hhd : ((s.chart R H).capacity p.1 p.2 false).headExceeds = decide ((s.chart R H).high.headAt p.1 < p.2) := rfl
  rw [hhd, headAt_left hw.increasing hleft]
  have : ¬ (s.chart R H).high.first.head < p.2 := by
    change ¬ (genericChart (R * s.scaleRate) (H * s.scaleHead) s.eff).high.first.head < p.2
    rw [c3]; simp only; nlinarith
  simp [this]

omit hs in
theorem maximize_spec (a b : ℚ) (f : ℚ → Bool) (hab : a ≤ b) :
    a ≤ maximizeDefault a b f ∧ maximizeDefault a b f ≤ b ∧ (maximizeDefault a b f = a ∨ f (maximizeDefault a b f) = true) := by
  unfold maximizeDefault
  obtain ⟨hi, h1, h2, h3, h4, -, -⟩ := C27_maximize (1 / 100000) 50 a b f hab (by norm_num) (by norm_num)
  exact ⟨h1, le_trans h2 h3, h4⟩

omit hs in
theorem raise_bounds (s : Fitting) (R H : ℚ) (hH : H ≤ 1 + headChange) :
    H ≤ s.raiseHead R H ∧ s.raiseHead R H ≤ 1 + headChange ∧ (s.raiseHead R H = H ∨ s.below R (s.raiseHead R H) = false) := by
  unfold Fitting.raiseHead
  obtain ⟨h1, h2, h4⟩ := maximize_spec H (1 + headChange) (fun x => !s.below R x) hH
  refine ⟨h1, h2, ?_⟩
  rcases h4 with h4 | h4
  · exact Or.inl h4
  · right; simpa using h4

/-- The loop: enough fuel, and what holds when it ends. -/
theorem grow_spec : ∀ (n : Nat) (R H : ℚ), 1 ≤ R → 1 ≤ H → H ≤ 1 + headChange → 1.507 ≤ R + (n : ℚ) / 100 →
    ∃ R' H', s.grow (n + 1) R H = some (R', H') ∧ R ≤ R' ∧ R' ≤ max R 1.517 ∧ H ≤ H' ∧ H' ≤ 1 + headChange ∧
      s.above R' H' = false := by
  intro n
  induction n with
  | zero =>
    intro R H hR hH hH' hn
    have := above_end hs (R := R) (H := H) (by simpa using hn) hH
    refine ⟨R, H, ?_, le_refl _, le_max_left _ _, le_refl _, hH', this⟩
    unfold Fitting.grow
    rw [this]
    rfl
  | succ n ih =>
    intro R H hR hH hH' hn
    by_cases ha : s.above R H = true
    · obtain ⟨b1, b2, -⟩ := raise_bounds s (R + 1 / 100) H hH'
      have hR' : R < 1.507 := by
        by_contra hcon
        rw [above_end hs (not_lt.mp hcon) hH] at ha
        cases ha
      obtain ⟨R', H', e, l1, l2, l3, l4, l5⟩ := ih (R + 1 / 100) (s.raiseHead (R + 1 / 100) H) (by linarith) (by linarith)
        b2 (by push_cast at hn; linarith)
      refine ⟨R', H', ?_, by linarith, ?_, by linarith, l4, l5⟩
      · rw [Fitting.grow, if_pos ha]; exact e
      · have : max (R + 1 / 100) 1.517 = (1.517 : ℚ) := max_eq_right (by norm_num at hR' ⊢; linarith)
        rw [this] at l2
        exact le_trans l2 (le_max_right _ _)
    · have ha' : s.above R H = false := by simpa using ha
      refine ⟨R, H, ?_, le_refl _, le_max_left _ _, le_refl _, hH', ha'⟩
      rw [Fitting.grow, if_neg ha]

/-- The point with the largest rate sits on the corner of the fastest curve and the stone wall: not below the wall ... -/
theorem corner_wall {H : ℚ} (hH : 0 < H) (h : s.below 1 H = false) :
    ∀ p ∈ s.pts, p.1 = s.scaleRate * 1.323778851 → H * s.scaleHead * 0.809949924 ≤ p.2 := by
  intro p hp hpr
  have hw := walled hs (by norm_num : (0 : ℚ) < 1) hH
  have hreach := reach hs (H := H) (by norm_num : (0 : ℚ) < 1)
  obtain ⟨-, c2, -, c4⟩ := corners (1 * s.scaleRate) (H * s.scaleHead) s.eff
  have c4' : (s.chart 1 H).high.last = ⟨1 * s.scaleRate * 1.323778851, H * s.scaleHead * 0.809949924, s.eff⟩ := c4
  have hmaxR : (s.chart 1 H).high.maxRate = p.1 := by unfold Curve.maxRate; rw [c4', hpr]; ring
  have hhead : (s.chart 1 H).high.headAt p.1 = H * s.scaleHead * 0.809949924 := by
    have := (C56_points _ hw.increasing _ (last_mem (s.chart 1 H).high)).1
    rw [show (s.chart 1 H).high.last.rate = p.1 from hmaxR] at this
    rw [this, c4']
  by_contra hcon
  have hcon := not_le.mp hcon
  have hnot := List.any_eq_false.mp h p hp
  obtain ⟨w1, w2, -⟩ := C61_stone_wall (s.chart 1 H) hw p.2
  have hlt : (s.chart 1 H).maxRateNoChokeAt p.2 < p.1 := by
    rcases le_or_gt p.2 (s.chart 1 H).low.last.head with q | q
    · rw [w1 q]; rw [hmaxR] at hreach; exact hreach
    · obtain ⟨-, -, e⟩ := w2 (le_of_lt q) (by rw [c4']; exact le_of_lt hcon)
      have hwl := hw.wall
      rw [hmaxR] at e hreach
      have hc' : p.2 < (s.chart 1 H).high.last.head := by rw [c4']; exact hcon
      by_contra hge
      have hge := not_lt.mp hge
      nlinarith [mul_pos (by linarith : 0 < (s.chart 1 H).high.last.head - p.2)
        (by linarith : 0 < p.1 - (s.chart 1 H).low.maxRate),
        mul_nonneg (by linarith : 0 ≤ (s.chart 1 H).maxRateNoChokeAt p.2 - p.1)
        (by linarith : 0 ≤ (s.chart 1 H).high.last.head - (s.chart 1 H).low.last.head)]
  have hre : ((s.chart 1 H).capacity p.1 p.2 false).rateExceeds = true := by
    unfold Chart.capacity Chart.maximumRate
    simp only [Bool.false_eq_true, if_false, decide_eq_true_eq]
    exact lt_of_lt_of_le hlt (le_max_right _ _)
  have hhd : ((s.chart 1 H).capacity p.1 p.2 false).headExceeds = decide ((s.chart 1 H).high.headAt p.1 < p.2) := rfl
  rw [hre, hhd, hhead] at hnot
  simp only [Bool.true_and, Bool.not_eq_true', decide_eq_false_iff_not, not_not] at hnot
  linarith

/-- ... and above the curve as soon as it is above the corner. -/
theorem corner_curve {H : ℚ} (hH : 0 < H) :
    ∀ p ∈ s.pts, p.1 = s.scaleRate * 1.323778851 → H * s.scaleHead * 0.809949924 < p.2 → s.above 1 H = true := by
  intro p hp hpr hgt
  have hw := walled hs (by norm_num : (0 : ℚ) < 1) hH
  have hsr := hs.rate
  obtain ⟨-, -, c3, c4⟩ := corners (1 * s.scaleRate) (H * s.scaleHead) s.eff
  have c4' : (s.chart 1 H).high.last = ⟨1 * s.scaleRate * 1.323778851, H * s.scaleHead * 0.809949924, s.eff⟩ := c4
  have c3' : (s.chart 1 H).high.first = ⟨1 * s.scaleRate * 0.878913798, H * s.scaleHead * 1.289869247, s.eff⟩ := c3
  have hmaxR : (s.chart 1 H).high.maxRate = p.1 := by unfold Curve.maxRate; rw [c4', hpr]; ring
  have hhead : (s.chart 1 H).high.headAt p.1 = H * s.scaleHead * 0.809949924 := by
    have := (C56_points _ hw.increasing _ (last_mem (s.chart 1 H).high)).1
    rw [show (s.chart 1 H).high.last.rate = p.1 from hmaxR] at this
    rw [this, c4']
  have hlast : (s.chart 1 H).high.last.head < p.2 := by rw [c4']; exact hgt
  have hwall := (C61_stone_wall (s.chart 1 H) hw p.2).2.2 (le_of_lt hlast)
  have hlt : (s.chart 1 H).maxRateNoChokeAt p.2 < p.1 := by
    rw [hwall]
    rcases le_or_gt p.2 (s.chart 1 H).high.first.head with q | q
    · by_contra hge
      have := ((right_iff_above hw.toOrdinary (le_of_lt hlast) q).mp (not_lt.mp hge)).2
      rw [hhead] at this
      linarith
    · obtain ⟨e, -, h3, -⟩ := C58_maximum_rate (s.chart 1 H) hw.increasing hw.drops p.2
      rw [← e, h3 q, hpr]
      unfold Curve.minRate
      rw [c3']
      simp only
      nlinarith
  unfold Fitting.above anyAbove
  rw [List.any_eq_true]
  refine ⟨p, hp, ?_⟩
  have hre : ((s.chart 1 H).capacity p.1 p.2 false).rateExceeds = true := by
    unfold Chart.capacity Chart.maximumRate
    simp only [Bool.false_eq_true, if_false, decide_eq_true_eq]
    exact lt_of_lt_of_le hlt (le_max_right _ _)
  have hhd : ((s.chart 1 H).capacity p.1 p.2 false).headExceeds = decide ((s.chart 1 H).high.headAt p.1 < p.2) := rfl
  rw [hre, hhd, hhead]
  simpa using hgt

/-- The head found before the rate is lowered cannot be lowered, so the rate is lowered by nothing. -/
theorem lowered_by_zero {H : ℚ} (hH : 1 ≤ H) (hb : s.below 1 H = false) :
    maximizeDefault 0 headChange (fun x => !s.above 1 (H - x)) = 0 := by
  obtain ⟨p, hp, hpr⟩ := hs.attained
  have hle := corner_wall hs (by linarith : 0 < H) hb p hp hpr
  have hpos : (0 : ℚ) ≤ headChange := by unfold headChange; norm_num
  have hsmall : headChange < (1 : ℚ) := by unfold headChange; norm_num
  obtain ⟨h1, h2, h4⟩ := maximize_spec 0 headChange (fun x => !s.above 1 (H - x)) hpos
  set m := maximizeDefault 0 headChange (fun x => !s.above 1 (H - x)) with hm
  rcases h4 with h4 | h4
  · exact h4
  · change (!s.above 1 (H - m)) = true at h4
    rcases eq_or_lt_of_le h1 with h0 | h0
    · exact h0.symm
    · exfalso
      have := corner_curve hs (H := H - m) (by linarith) p hp hpr (by
        have := mul_pos h0 hs.head
        nlinarith)
      rw [this] at h4
      cases h4

/-- What the search finds. -/
theorem design_spec (fuel : Nat) (hf : 60 ≤ fuel) :
    ∃ R H, s.design fuel = some (R, H) ∧ 1 ≤ R ∧ R ≤ 1 + rateChange ∧ 1 ≤ H ∧ H ≤ 1 + headChange ∧ s.above R H = false := by
  obtain ⟨n, rfl⟩ : ∃ n, fuel = n + 1 := ⟨fuel - 1, by omega⟩
  have hn : (59 : ℚ) ≤ n := by
    have : 59 ≤ n := by omega
    exact_mod_cast this
  have hrc : (1.517 : ℚ) ≤ 1 + rateChange := by unfold rateChange; norm_num
  have hrc0 : (0 : ℚ) ≤ rateChange := by unfold rateChange; norm_num
  have hhc : (1 : ℚ) ≤ 1 + headChange := by unfold headChange; norm_num
  unfold Fitting.design
  by_cases hb : s.below 1 1 = true
  · rw [if_pos hb]
    obtain ⟨h1, h2, -⟩ := maximize_spec 0 ((1 + rateChange) - 1) (fun x => !s.below ((1 + rateChange) - x) 1) (by linarith)
    set m := maximizeDefault 0 ((1 + rateChange) - 1) (fun x => !s.below ((1 + rateChange) - x) 1)
    obtain ⟨R', H', e, l1, l2, l3, l4, l5⟩ := grow_spec hs n (1 + rateChange - m) 1 (by linarith) (le_refl _) hhc
      (by norm_num; linarith)
    exact ⟨R', H', e, by linarith, le_trans l2 (max_le (by linarith) hrc), l3, l4, l5⟩
  · rw [if_neg hb]
    have hb' : s.below 1 1 = false := by simpa using hb
    by_cases ha : s.above 1 1 = true
    · rw [if_pos ha]
      obtain ⟨b1, b2, b3⟩ := raise_bounds s 1 1 hhc
      by_cases ha2 : s.above 1 (s.raiseHead 1 1) = true
      · simp only [ha2, Bool.not_true, Bool.false_eq_true, if_false]
        obtain ⟨R', H', e, l1, l2, l3, l4, l5⟩ := grow_spec hs n 1 (s.raiseHead 1 1) (le_refl _) b1 b2
          (by norm_num; linarith)
        exact ⟨R', H', e, l1, le_trans l2 (max_le (by linarith) hrc), by linarith, l4, l5⟩
      · have ha2' : s.above 1 (s.raiseHead 1 1) = false := by simpa using ha2
        simp only [ha2', Bool.not_false, if_true]
        have hbelow : s.below 1 (s.raiseHead 1 1) = false := by
          rcases b3 with b3 | b3
          · rw [b3]; exact hb'
          · exact b3
        rw [lowered_by_zero hs b1 hbelow, sub_zero]
        exact ⟨1, _, rfl, le_refl _, by linarith, b1, b2, ha2'⟩
    · rw [if_neg ha]
      exact ⟨1, 1, rfl, le_refl _, by linarith, le_refl _, hhc, by simpa using ha⟩

omit hs in
theorem grow_more (s : Fitting) : ∀ (n : Nat) (R H : ℚ) (x : ℚ × ℚ), s.grow n R H = some x → s.grow (n + 1) R H = some x := by
  intro n
  induction n with
  | zero => intro R H x h; cases h
  | succ n ih =>
    intro R H x h
    rw [Fitting.grow] at h
    rw [Fitting.grow]
    by_cases ha : s.above R H = true
    · rw [if_pos ha] at h ⊢
      exact ih _ _ _ h
    · rw [if_neg ha] at h ⊢
      exact h

omit hs in
theorem design_more (s : Fitting) (n : Nat) (x : ℚ × ℚ) (h : s.design n = some x) : s.design (n + 1) = some x := by
  rw [Fitting.design] at h ⊢
  by_cases h1 : s.below 1 1 = true
  · rw [if_pos h1] at h ⊢
    exact grow_more s _ _ _ _ h
  · rw [if_neg h1] at h ⊢
    by_cases h2 : s.above 1 1 = true
    · rw [if_pos h2] at h ⊢
      by_cases h3 : (!s.above 1 (s.raiseHead 1 1)) = true
      · simp only [if_pos h3] at h ⊢
        exact h
      · simp only [if_neg h3] at h ⊢
        exact grow_more s _ _ _ _ h
    · rw [if_neg h2] at h ⊢
      exact h

end

/-! ## The property -/

theorem scaled_of (p : ℚ × ℚ) (ps : List (ℚ × ℚ)) (eff : ℚ) {R H : ℚ} (hR : Largest R ((p :: ps).map (·.1)))
    (hH : Largest H ((p :: ps).map (·.2))) (hR0 : 0 < R) (hH0 : 0 < H) :
    greatest p.1 (ps.map (·.1)) = R ∧ greatest p.2 (ps.map (·.2)) = H ∧
      Scaled ⟨p :: ps, eff, R / fastMaxRate, H / 1.289869247⟩ := by
  have g1 := foldl_max_spec (ps.map (·.1)) p.1
  have g2 := foldl_max_spec (ps.map (·.2)) p.2
  have e1 : greatest p.1 (ps.map (·.1)) = R := le_antisymm (hR.2 _ (by simpa [greatest] using g1.1)) (g1.2 _ (by simpa using hR.1))
  have e2 : greatest p.2 (ps.map (·.2)) = H := le_antisymm (hH.2 _ (by simpa [greatest] using g2.1)) (g2.2 _ (by simpa using hH.1))
  have s1 : R / fastMaxRate * 1.323778851 = R := by unfold fastMaxRate; exact div_mul_cancel₀ R (by norm_num)
  have s2 : H / 1.289869247 * 1.289869247 = H := div_mul_cancel₀ H (by norm_num)
  refine ⟨e1, e2, ?_, ?_, ?_, ?_, ?_⟩
  · exact div_pos hR0 (by unfold fastMaxRate; norm_num)
  · exact div_pos hH0 (by norm_num)
  · intro q hq
    change q.1 ≤ R / fastMaxRate * 1.323778851
    rw [s1]
    exact hR.2 _ (List.mem_map.mpr ⟨q, hq, rfl⟩)
  · intro q hq
    change q.2 ≤ H / 1.289869247 * 1.289869247
    rw [s2]
    exact hH.2 _ (List.mem_map.mpr ⟨q, hq, rfl⟩)
  · obtain ⟨q, hq, he⟩ := List.mem_map.mp hR.1
    refine ⟨q, hq, ?_⟩
    change q.1 = R / fastMaxRate * 1.323778851
    rw [s1, he]

/-- **The chart covers the input**: for points with some flow and some head, the search ends and the chart it makes
covers every point when choking and recirculation are allowed. Its largest rate and head are at least those of the
points and at most 60 % and 48 % larger. -/
theorem C64_covers (pts : List (ℚ × ℚ)) (eff R H : ℚ) (fuel : Nat) (hf : 60 ≤ fuel) (he : 0 ≤ eff ∧ eff ≤ 1)
    (hR : Largest R (pts.map (·.1))) (hH : Largest H (pts.map (·.2))) (hR0 : 0 < R) (hH0 : 0 < H) :
    ∃ dr dh ch, genericFromInput fuel pts eff = .ok (some (dr, dh, ch)) ∧ genericFromDesign dr dh eff = .ok ch ∧
      Covers ch pts ∧ R ≤ ch.high.maxRate ∧ ch.high.maxRate ≤ 1.6 * R ∧
      H ≤ ch.high.first.head ∧ ch.high.first.head ≤ 1.48 * H := by
  cases pts with
  | nil => cases hR.1
  | cons p ps =>
    obtain ⟨e1, e2, hs⟩ := scaled_of p ps eff hR hH hR0 hH0
    obtain ⟨r, h, hd, r1, r2, h1, h2, ha⟩ := design_spec hs fuel hf
    have hsr := hs.rate
    have hsh := hs.head
    simp only at hsr hsh
    have hr0 : 0 < r * (R / fastMaxRate) := mul_pos (by linarith) hsr
    obtain ⟨ch0, c0, -⟩ := (C63_design (R / fastMaxRate) (H / 1.289869247) eff hsr).2 he
    obtain ⟨ch, c1, c2, -⟩ := (C63_design (r * (R / fastMaxRate)) (h * (H / 1.289869247)) eff hr0).2 he
    refine ⟨r * (R / fastMaxRate), h * (H / 1.289869247), ch, ?_, c1, ?_, ?_⟩
    · unfold genericFromInput
      simp only [e1, e2, c0, hd, c1, Bind.bind, Except.bind, Pure.pure, Except.pure]
    · rw [c2]
      exact covers_of hs r1 h1 ha
    · obtain ⟨-, -, c3, c4⟩ := corners (r * (R / fastMaxRate)) (h * (H / 1.289869247)) eff
      unfold Curve.maxRate
      rw [c2, c3, c4]
      simp only
      have s1 : r * (R / fastMaxRate) * 1.323778851 = r * R := by
        unfold fastMaxRate; field_simp
      have s2 : h * (H / 1.289869247) * 1.289869247 = h * H := by field_simp
      rw [s1, s2]
      have : rateChange ≤ (0.6 : ℚ) := by unfold rateChange; norm_num
      have : headChange ≤ (0.48 : ℚ) := by unfold headChange; norm_num
      refine ⟨by nlinarith, by nlinarith, by nlinarith, by nlinarith⟩

/-- **The loops end by themselves**: more fuel than 60 passes never changes the result. -/
theorem C64_terminates (pts : List (ℚ × ℚ)) (eff R H : ℚ) (fuel : Nat) (hf : 60 ≤ fuel)
    (hR : Largest R (pts.map (·.1))) (hH : Largest H (pts.map (·.2))) (hR0 : 0 < R) (hH0 : 0 < H) :
    genericFromInput fuel pts eff = genericFromInput 60 pts eff := by
  cases pts with
  | nil => rfl
  | cons p ps =>
    obtain ⟨e1, e2, hs⟩ := scaled_of p ps eff hR hH hR0 hH0
    have key : ∀ n, 60 ≤ n → Fitting.design ⟨p :: ps, eff, R / fastMaxRate, H / 1.289869247⟩ n =
        Fitting.design ⟨p :: ps, eff, R / fastMaxRate, H / 1.289869247⟩ 60 := by
      intro n hn
      induction n, hn using Nat.le_induction with
      | base => rfl
      | succ n hn ih =>
        obtain ⟨r, h, hd, -⟩ := design_spec hs n hn
        rw [design_more _ n _ hd, ← ih, hd]
    unfold genericFromInput
    simp only [e1, e2, key fuel hf]

/-- **Errors**: no points, or an efficiency that is not a fraction. -/
theorem C64_errors (pts : List (ℚ × ℚ)) (eff R H : ℚ) (fuel : Nat) :
    genericFromInput fuel [] eff = .error .valueError ∧
    (¬ (0 ≤ eff ∧ eff ≤ 1) → Largest R (pts.map (·.1)) → Largest H (pts.map (·.2)) → 0 < R → 0 < H →
      genericFromInput fuel pts eff = .error .validation) := by
  refine ⟨rfl, fun he hR hH hR0 hH0 => ?_⟩
  cases pts with
  | nil => cases hR.1
  | cons p ps =>
    obtain ⟨e1, e2, hs⟩ := scaled_of p ps eff hR hH hR0 hH0
    have c0 := (C63_design (R / fastMaxRate) (H / 1.289869247) eff hs.rate).1 he
    unfold genericFromInput
    simp only [e1, e2, c0, Bind.bind, Except.bind]

/-- **Below the stone wall**: the description promises that all points are within capacity of the chart. Without choking
this fails for a point of large rate and very small head. -/
theorem C64_below_wall : ∃ dr dh ch, genericFromInput 60 [(1000, 1), (10, 100)] 1 = .ok (some (dr, dh, ch)) ∧
    (ch.capacity 1000 1 false).exceeds = true := by
  have h : (match genericFromInput 60 [(1000, 1), (10, 100)] 1 with
    | .ok (some (_, _, ch)) => (ch.capacity 1000 1 false).exceeds
    | _ => false) = true := by decide +kernel
  revert h
  rcases genericFromInput 60 [(1000, 1), (10, 100)] 1 with e | _ | ⟨dr, dh, ch⟩
  · intro h; cases h
  · intro h; cases h
  · intro h; exact ⟨dr, dh, ch, rfl, h⟩

/-- Three points: a chart above the first point of the input. -/
example : ∃ dr dh ch, genericFromInput 60 [(1000, 50000), (600, 120000), (800, 90000)] (3 / 4) = .ok (some (dr, dh, ch)) ∧
    Covers ch [(1000, 50000), (600, 120000), (800, 90000)] := by
  obtain ⟨dr, dh, ch, h1, -, h2, -⟩ := C64_covers [(1000, 50000), (600, 120000), (800, 90000)] (3 / 4) 1000 120000 60
    (le_refl _) (by norm_num) (by unfold Largest; decide +kernel) (by unfold Largest; decide +kernel) (by norm_num) (by norm_num)
  exact ⟨dr, dh, ch, h1, h2⟩

end Verif.C64
