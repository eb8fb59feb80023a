import Verif.Props.C58
import Verif.Model.CompressorChart

/-!
# C61: capacity of a compressor chart

A point is moved right to the minimum flow line and, where choking is allowed, up to the minimum head line, by the least
amount, and it is within capacity exactly when the point so moved is inside the envelope of the chart.
-/

namespace Verif.C61
open Verif.Time Verif.Table Verif.TableLemmas Verif.Charts Verif.Polyline Verif.C56 Verif.C57 Verif.C58

/-! ## Specification -/

/-- The shape of an ordinary chart: the lines do not cross, the fastest curve falls strictly. -/
structure Ordinary (ch : Chart) : Prop extends Ordered ch where
  increasing : Increasing ch.high
  drops : Drops ch.high

/-- The shape needed without choking: the slowest curve does not rise and the stone wall rises. -/
structure Walled (ch : Chart) : Prop extends Ordinary ch where
  lowFalls : Falls ch.low
  wall : ch.low.last.head < ch.high.last.head

/-- Inside the envelope, choking allowed: not beyond the fastest curve. -/
def Inside (ch : Chart) (rate head : ℚ) : Prop := rate ≤ ch.high.maxRate ∧ head ≤ ch.high.headAt rate

/-! ## The corrections -/

/-- **Corrections** with choking: the least rate that covers the request and the minimum flow line, the least head that
covers the request and the minimum head line; the flags say whether anything was changed. -/
theorem C61_corrected (ch : Chart) (rate head : ℚ) :
    Smallest (ch.capacity rate head true).rate [rate, ch.minRateAt head] ∧
    Smallest (ch.capacity rate head true).head [head, ch.minHeadAt (ch.capacity rate head true).rate] ∧
    ((ch.capacity rate head true).recirculates = true ↔ (ch.capacity rate head true).rate ≠ rate) ∧
    ((ch.capacity rate head true).choked = true ↔ (ch.capacity rate head true).head ≠ head) := by
  unfold Chart.capacity
  simp only [if_true, Bool.true_and, decide_eq_true_eq]
  refine ⟨by rw [max_comm]; exact max_smallest2 _ _, by rw [max_comm]; exact max_smallest2 _ _, ?_, ?_⟩
  · constructor
    · intro h; rw [max_eq_left (le_of_lt h)]; exact ne_of_gt h
    · intro h
      by_contra hcon
      exact h (max_eq_right (not_lt.mp hcon))
  · constructor
    · intro h; rw [max_eq_left (le_of_lt h)]; exact ne_of_gt h
    · intro h
      by_contra hcon
      exact h (max_eq_right (not_lt.mp hcon))

/-- **Corrections** without choking: only the rate is corrected, with the minimum flow line that follows the slowest
curve; the head is never changed. -/
theorem C61_corrected_no_choke (ch : Chart) (rate head : ℚ) :
    Smallest (ch.capacity rate head false).rate [rate, ch.minRateNoChokeAt head] ∧
    (ch.capacity rate head false).head = head ∧ (ch.capacity rate head false).choked = false ∧
    ((ch.capacity rate head false).recirculates = true ↔ (ch.capacity rate head false).rate ≠ rate) := by
  unfold Chart.capacity
  simp only [Bool.false_eq_true, if_false, Bool.false_and, decide_eq_true_eq, true_and]
  refine ⟨by rw [max_comm]; exact max_smallest2 _ _, ?_⟩
  constructor
  · intro h; rw [max_eq_left (le_of_lt h)]; exact ne_of_gt h
  · intro h
    by_contra hcon
    exact h (max_eq_right (not_lt.mp hcon))

/-! ## Capacity -/

theorem high_range {ch : Chart} (h : Ordinary ch) (x : ℚ) : ch.high.last.head ≤ ch.high.headAt x ∧
    ch.high.headAt x ≤ ch.high.first.head :=
  (C56_range ch.high _ _ x).1 fun p hp => ⟨last_head_le h.falls p hp, head_le_first h.falls p hp⟩

theorem headAt_left {c : Curve} (h : Increasing c) {x : ℚ} (hx : x ≤ c.minRate) : c.headAt x = c.first.head := by
  rcases eq_or_lt_of_le hx with rfl | hx
  · exact (C56_points c h c.first (first_mem c)).1
  · exact interp_below (rows_ne _ _) (fun r hr => by
      obtain ⟨p, hp, rfl⟩ := mem_rows hr
      exact lt_of_lt_of_le hx (first_le (increasing_le h) p hp))

/-- On the heads of the fastest curve, "not to the right of it" and "not above it" say the same. -/
theorem right_iff_above {ch : Chart} (h : Ordinary ch) {x head : ℚ} (h1 : ch.high.last.head ≤ head)
    (h2 : head ≤ ch.high.first.head) : x ≤ ch.high.rateAt head ↔ x ≤ ch.high.maxRate ∧ head ≤ ch.high.headAt x := by
  obtain ⟨i1, i2⟩ := C56_inverse ch.high h.increasing h.drops
  obtain ⟨heq, -, -, hb⟩ := C58_maximum_rate ch h.increasing h.drops head
  obtain ⟨-, b1, b2⟩ := hb h1 h2
  rw [heq] at b1 b2
  have hinv := i2 head h1 h2
  constructor
  · intro hx
    refine ⟨le_trans hx b2, ?_⟩
    have := C56_antitone ch.high h.increasing h.falls _ _ hx
    rwa [hinv] at this
  · rintro ⟨hx, hh⟩
    by_contra hcon
    have hcon := not_le.mp hcon
    have ha := C56_antitone ch.high h.increasing h.falls _ _ (le_of_lt hcon)
    rw [hinv] at ha
    have heq2 : ch.high.headAt x = head := le_antisymm ha hh
    have := i1 x (le_trans b1 (le_of_lt hcon)) hx
    rw [heq2] at this
    linarith

/-- **Capacity with choking**: within capacity exactly when the corrected point is inside the envelope, whatever the
point was before. -/
theorem C61_capacity (ch : Chart) (h : Ordinary ch) (rate head : ℚ) :
    (ch.capacity rate head true).exceeds = false ↔
      Inside ch (ch.capacity rate head true).rate (ch.capacity rate head true).head := by
  have hmm := (C58_valid_region ch h.toOrdered).1
  obtain ⟨heq, hbelow, habove, -⟩ := C58_maximum_rate ch h.increasing h.drops head
  unfold Chart.capacity Inside Chart.maximumRate
  simp only [if_true, Bool.not_true, Bool.false_and, Bool.not_false, Bool.and_true, Bool.not_eq_false',
    Bool.and_eq_true, Bool.not_eq_true', decide_eq_false_iff_not, not_lt]
  set a := max (ch.minRateAt head) rate with ha
  have hra : rate ≤ a := le_max_right _ _
  have hanti : ch.high.headAt a ≤ ch.high.headAt rate := C56_antitone ch.high h.increasing h.falls _ _ hra
  have hmin : ch.minHeadAt a ≤ ch.high.headAt a := hmm a
  change (a ≤ ch.maxRateAt head ∧ max (ch.minHeadAt a) head ≤ ch.high.headAt rate) ↔ _
  have hrng := high_range h
  rcases lt_or_ge head ch.high.last.head with h1 | h1
  · rw [hbelow h1]
    constructor
    · rintro ⟨x, -⟩
      exact ⟨x, max_le hmin (le_trans (le_of_lt h1) (hrng a).1)⟩
    · rintro ⟨x, y⟩
      exact ⟨x, le_trans y hanti⟩
  · rcases lt_or_ge ch.high.first.head head with h2 | h2
    · constructor
      · rintro ⟨-, y⟩
        have := le_trans (le_max_right _ _) y
        have := (hrng rate).2
        linarith
      · rintro ⟨-, y⟩
        have := le_trans (le_max_right _ _) y
        have := (hrng a).2
        linarith
    · rw [heq, right_iff_above h h1 h2]
      constructor
      · rintro ⟨⟨x, z⟩, -⟩
        exact ⟨x, max_le hmin z⟩
      · rintro ⟨x, y⟩
        exact ⟨⟨x, le_trans (le_max_right _ _) y⟩, le_trans y hanti⟩

/-- The stone wall as a function of head: below the last point of the slowest curve its largest rate, straight up to the
last point of the fastest curve, then the fastest curve. -/
theorem C61_stone_wall (ch : Chart) (h : Walled ch) (head : ℚ) :
    (head ≤ ch.low.last.head → ch.maxRateNoChokeAt head = ch.low.maxRate) ∧
    (ch.low.last.head ≤ head → head ≤ ch.high.last.head →
      OnSegment ch.low.last.head ch.low.maxRate ch.high.last.head ch.high.maxRate head (ch.maxRateNoChokeAt head)) ∧
    (ch.high.last.head ≤ head → ch.maxRateNoChokeAt head = ch.high.rateAt head) := by
  have hf := swap_functional h.increasing h.drops
  obtain ⟨-, e2⟩ := sorted_ends h.increasing h.drops
  have hlo := last_head_le h.falls
  have hhi := head_le_first h.falls
  set S := sortRows (ch.high.pts.map fun p => (p.head, p.rate)) with hS
  have hmem : ∀ r, r ∈ S ↔ r ∈ ch.high.pts.map fun p => (p.head, p.rate) := mem_sortRows _
  have hge : ∀ r ∈ S, ch.high.last.head ≤ r.1 := by
    intro r hr
    obtain ⟨p, hp, rfl⟩ := List.mem_map.mp ((hmem r).mp hr)
    exact hlo p hp
  have hlastS : (ch.high.last.head, ch.high.last.rate) ∈ S := (hmem _).mpr (List.mem_map.mpr ⟨_, last_mem _, rfl⟩)
  have hfirstS : (ch.high.first.head, ch.high.first.rate) ∈ S := (hmem _).mpr (List.mem_map.mpr ⟨_, first_mem _, rfl⟩)
  have hfS : Functional S := fun r hr s hs => hf r ((hmem r).mp hr) s ((hmem s).mp hs)
  have hwall := h.wall
  have hfun : Functional ((ch.low.last.head, ch.low.last.rate) :: S) := by
    intro r hr s hs he
    rcases List.mem_cons.mp hr with hr' | hr' <;> rcases List.mem_cons.mp hs with hs' | hs'
    · rw [hr', hs']
    · have := hge s hs'; rw [hr'] at he; simp only at he; linarith
    · have := hge r hr'; rw [hs'] at he; simp only at he; linarith
    · exact hfS r hr' s hs' he
  have hdef : ch.maxRateNoChokeAt head = interp ((ch.low.last.head, ch.low.last.rate) :: S) ch.low.last.rate
      ch.high.first.rate head := by
    unfold Chart.maxRateNoChokeAt Chart.highByHead
    rw [e2]
  rw [hdef]
  have seg : ch.low.last.head ≤ head → head ≤ ch.high.last.head →
      interp ((ch.low.last.head, ch.low.last.rate) :: S) ch.low.last.rate ch.high.first.rate head =
      onLine (ch.low.last.head, ch.low.last.rate) (ch.high.last.head, ch.high.last.rate) head := by
    intro h1 h2
    apply interp_eq hfun
    rcases eq_or_lt_of_le h1 with he | h1
    · left
      rw [← he, show onLine (ch.low.last.head, ch.low.last.rate) (ch.high.last.head, ch.high.last.rate) ch.low.last.head =
        ch.low.last.rate from onLine_left]
      simp
    · rcases eq_or_lt_of_le h2 with he | h2
      · left
        rw [he, show onLine (ch.low.last.head, ch.low.last.rate) (ch.high.last.head, ch.high.last.rate) ch.high.last.head =
          ch.high.last.rate from onLine_right (a := (ch.low.last.head, ch.low.last.rate))
            (b := (ch.high.last.head, ch.high.last.rate)) hwall]
        exact List.mem_cons_of_mem _ hlastS
      · right
        refine ⟨_, List.mem_cons_self, _, List.mem_cons_of_mem _ hlastS, h1, h2, ?_, rfl⟩
        intro r hr
        rcases List.mem_cons.mp hr with hr' | hr'
        · left; rw [hr']
        · right; exact hge r hr'
  refine ⟨fun h1 => ?_, fun h1 h2 => ?_, fun h1 => ?_⟩
  · rcases eq_or_lt_of_le h1 with he | h1
    · rw [seg (le_of_eq he.symm) (by rw [he]; exact le_of_lt hwall), he]
      exact onLine_left
    · apply interp_below (by simp)
      intro r hr
      rcases List.mem_cons.mp hr with hr' | hr'
      · rw [hr']; exact h1
      · exact lt_of_lt_of_le (lt_trans h1 hwall) (hge r hr')
  · rw [seg h1 h2]
    exact onLine_segment (a := (ch.low.last.head, ch.low.last.rate)) (b := (ch.high.last.head, ch.high.last.rate)) hwall h1 h2
  · rcases lt_or_ge ch.high.first.head head with h2 | h2
    · rw [interp_above (by simp)]
      · symm
        apply interp_above (by simp [Curve.pts])
        intro r hr
        obtain ⟨p, hp, rfl⟩ := List.mem_map.mp hr
        exact lt_of_le_of_lt (hhi p hp) h2
      · intro r hr
        rcases List.mem_cons.mp hr with hr' | hr'
        · rw [hr']; exact lt_of_lt_of_le hwall h1
        · obtain ⟨p, hp, rfl⟩ := List.mem_map.mp ((hmem r).mp hr')
          exact lt_of_le_of_lt (hhi p hp) h2
    · apply interp_eq hfun
      have hb : Between (ch.high.pts.map fun p => (p.head, p.rate)) head (ch.high.rateAt head) :=
        interp_inside ⟨_, List.mem_map.mpr ⟨ch.high.last, last_mem _, rfl⟩, h1⟩
          ⟨_, List.mem_map.mpr ⟨ch.high.first, first_mem _, rfl⟩, h2⟩
      rcases hb with m | ⟨a, ha, b, hb, q1, q2, q3, he⟩
      · left; exact List.mem_cons_of_mem _ ((hmem _).mpr m)
      · right
        refine ⟨a, List.mem_cons_of_mem _ ((hmem a).mpr ha), b, List.mem_cons_of_mem _ ((hmem b).mpr hb), q1, q2, ?_, he⟩
        intro r hr
        rcases List.mem_cons.mp hr with hr' | hr'
        · left
          rw [hr']
          exact le_of_lt (lt_of_lt_of_le hwall (hge a ((hmem a).mpr ha)))
        · exact q3 r ((hmem r).mp hr')

/-- The minimum head line is nowhere below the last point of the slowest curve. -/
theorem min_head_ge {ch : Chart} (h : Walled ch) (x : ℚ) : ch.low.last.head ≤ ch.minHeadAt x := by
  obtain ⟨m1, m2, m3, m4⟩ := C58_minimum_head ch h.low x
  have hl := head_ge_last h.lowFalls x
  rcases le_or_gt x ch.low.maxRate with hx | hx
  · rw [m1 hx]; exact hl
  · rcases eq_or_lt_of_le h.reach with he | hlt
    · rw [m2 (le_of_eq he.symm)]; exact hl
    · rcases le_or_gt x ch.high.maxRate with hx' | hx'
      · obtain ⟨-, -, hs⟩ := m3 hlt (le_of_lt hx) hx'
        have hd : 0 < ch.high.maxRate - ch.low.maxRate := by linarith
        have hw := h.wall
        by_contra hcon
        have hcon := not_le.mp hcon
        nlinarith
      · rw [m4 hlt (le_of_lt hx')]; exact le_of_lt h.wall

/-- **Capacity without choking**: within capacity exactly when the corrected point is inside the envelope and not below
the minimum head line. -/
theorem C61_capacity_no_choke (ch : Chart) (h : Walled ch) (hlt : ch.low.maxRate < ch.high.maxRate) (rate head : ℚ) :
    (ch.capacity rate head false).exceeds = false ↔
      Inside ch (ch.capacity rate head false).rate head ∧ ch.minHeadAt (ch.capacity rate head false).rate ≤ head := by
  obtain ⟨w1, w2, w3⟩ := C61_stone_wall ch h head
  unfold Chart.capacity Inside Chart.maximumRate
  simp only [Bool.false_eq_true, if_false, Bool.not_false, Bool.true_and, Bool.not_eq_false', Bool.and_eq_true,
    Bool.not_eq_true', decide_eq_false_iff_not, not_lt]
  set a := max (ch.minRateNoChokeAt head) rate with ha
  have hra : rate ≤ a := le_max_right _ _
  have hanti : ch.high.headAt a ≤ ch.high.headAt rate := C56_antitone ch.high h.increasing h.falls _ _ hra
  change ((a ≤ ch.maxRateNoChokeAt head ∧ head ≤ ch.high.headAt rate) ∧ ch.minHeadAt a ≤ head) ↔ _
  have hrng := high_range h.toOrdinary
  have hge := min_head_ge h a
  have hw := h.wall
  rcases lt_or_ge head ch.low.last.head with h0 | h0
  · constructor
    · rintro ⟨-, hh⟩; linarith
    · rintro ⟨-, hh⟩; linarith
  · rcases lt_or_ge head ch.high.last.head with h1 | h1
    · obtain ⟨-, -, hs⟩ := w2 h0 (le_of_lt h1)
      have hd : 0 < ch.high.maxRate - ch.low.maxRate := by linarith
      have hd2 : 0 < ch.high.last.head - ch.low.last.head := by linarith
      constructor
      · rintro ⟨⟨x, y⟩, z⟩
        refine ⟨⟨?_, le_trans (le_of_lt h1) (hrng a).1⟩, z⟩
        apply le_trans x
        by_contra hcon
        have hcon := not_le.mp hcon
        nlinarith
      · rintro ⟨⟨x, y⟩, z⟩
        refine ⟨⟨?_, le_trans y hanti⟩, z⟩
        rcases le_or_gt a ch.low.maxRate with hx | hx
        · apply le_trans hx
          by_contra hcon
          have hcon := not_le.mp hcon
          nlinarith
        · obtain ⟨-, -, hs'⟩ := (C58_minimum_head ch h.low a).2.2.1 hlt (le_of_lt hx) x
          -- both points are on the stone wall
          by_contra hcon
          have hcon := not_le.mp hcon
          have e1 : (a - ch.low.maxRate) * (ch.high.last.head - ch.low.last.head) =
              (ch.minHeadAt a - ch.low.last.head) * (ch.high.maxRate - ch.low.maxRate) := by linarith
          have e2 : (ch.maxRateNoChokeAt head - ch.low.maxRate) * (ch.high.last.head - ch.low.last.head) <
              (a - ch.low.maxRate) * (ch.high.last.head - ch.low.last.head) :=
            mul_lt_mul_of_pos_right (by linarith) hd2
          have e3 : (ch.minHeadAt a - ch.low.last.head) * (ch.high.maxRate - ch.low.maxRate) ≤
              (head - ch.low.last.head) * (ch.high.maxRate - ch.low.maxRate) :=
            mul_le_mul_of_nonneg_right (by linarith) (le_of_lt hd)
          nlinarith
    · rw [w3 h1]
      rcases lt_or_ge ch.high.first.head head with h2 | h2
      · constructor
        · rintro ⟨⟨-, y⟩, -⟩
          have := (hrng rate).2
          linarith
        · rintro ⟨⟨-, y⟩, -⟩
          have := (hrng a).2
          linarith
      · rw [right_iff_above h.toOrdinary h1 h2]
        constructor
        · rintro ⟨⟨⟨x, y⟩, -⟩, z⟩; exact ⟨⟨x, y⟩, z⟩
        · rintro ⟨⟨x, y⟩, z⟩; exact ⟨⟨⟨x, y⟩, le_trans y hanti⟩, z⟩

/-- **Once is enough**: on a chart whose minimum flow line leans to the right and stays left of the stone wall, the
corrected point is not corrected again, and its capacity verdict is the same. -/
theorem C61_stable (ch : Chart) (h : Ordinary ch) (hlow : Falls ch.low) (h1 : ch.low.first.head < ch.high.first.head)
    (h2 : ch.low.first.rate ≤ ch.high.first.rate) (h3 : ch.high.first.rate ≤ ch.low.maxRate) (rate head : ℚ) :
    let r := ch.capacity rate head true
    let r' := ch.capacity r.rate r.head true
    r'.rate = r.rate ∧ r'.head = r.head ∧ r'.exceeds = r.exceeds := by
  intro r r'
  obtain ⟨c1, c2, -, -⟩ := C61_corrected ch rate head
  obtain ⟨d1, d2, -, -⟩ := C61_corrected ch r.rate r.head
  have hflow : ∀ x, ch.low.first.rate ≤ ch.minRateAt x ∧ ch.minRateAt x ≤ ch.high.first.rate := by
    intro x
    exact interp_bounds (by simp) (by simp [h2]) ⟨le_refl _, h2⟩ ⟨h2, le_refl _⟩
  have key : ch.minRateAt r.head ≤ r.rate := by
    by_cases he : r.head = head
    · rw [he]; exact c1.1 _ (by simp)
    · have hr : r.head = ch.minHeadAt r.rate := by
        have hmax : r.head = max head (ch.minHeadAt r.rate) :=
          le_antisymm (c2.2 _ (max_smallest2 _ _).1)
            (max_le (c2.1 _ List.mem_cons_self) (c2.1 _ (List.mem_cons_of_mem _ List.mem_cons_self)))
        rcases max_choice head (ch.minHeadAt r.rate) with hc | hc
        · exact absurd (hmax.trans hc) he
        · exact hmax.trans hc
      rcases le_or_gt r.rate ch.low.maxRate with hx | hx
      · have hle : r.head ≤ ch.low.first.head := by
          rw [hr, (C58_minimum_head ch h.low r.rate).1 hx]
          exact ((C56_range ch.low _ _ r.rate).1 fun p hp => ⟨last_head_le hlow p hp, head_le_first hlow p hp⟩).2
        rw [(C58_minimum_flow ch h1 r.head).1 hle]
        exact le_trans (hflow head).1 (c1.1 _ (by simp))
      · exact le_trans (hflow r.head).2 (le_trans h3 (le_of_lt hx))
  have e1 : r'.rate = r.rate :=
    le_antisymm (d1.2 _ fun y hy => by
      simp only [List.mem_cons, List.not_mem_nil, or_false] at hy
      rcases hy with rfl | rfl
      · exact le_refl _
      · exact key) (d1.1 _ List.mem_cons_self)
  have e2 : r'.head = r.head := by
    refine le_antisymm (d2.2 _ ?_) (d2.1 _ List.mem_cons_self)
    intro y hy
    simp only [List.mem_cons, List.not_mem_nil, or_false] at hy
    rcases hy with rfl | rfl
    · exact le_refl _
    · change ch.minHeadAt r'.rate ≤ r.head
      rw [e1]; exact c2.1 _ (List.mem_cons_of_mem _ List.mem_cons_self)
  refine ⟨e1, e2, ?_⟩
  have a := C61_capacity ch h rate head
  have b := C61_capacity ch h r.rate r.head
  change (r'.exceeds = false ↔ Inside ch r'.rate r'.head) at b
  change (r.exceeds = false ↔ Inside ch r.rate r.head) at a
  rw [e1, e2, ← a] at b
  cases hr : r.exceeds <;> cases hr' : r'.exceeds <;> simp_all

/-! ## Examples -/

theorem exWalled : Walled exPump.chart where
  toOrdered := exPump_ordered
  increasing := by unfold Increasing; decide +kernel
  drops := by unfold Drops; decide +kernel
  lowFalls := by unfold Falls; decide +kernel
  wall := by decide +kernel

/-- To the left of the minimum flow line, inside, and above. -/
example : exPump.chart.capacity 100 4800 true = ⟨260, 4800, true, false, false, false, false⟩ ∧
    exPump.chart.capacity 400 4000 true = ⟨400, 4000, false, false, false, false, false⟩ ∧
    (exPump.chart.capacity 400 6000 true).exceeds = true := by decide +kernel

/-- Below the slowest curve: choked up, or refused. -/
example : exPump.chart.capacity 500 1000 true = ⟨500, 2500, false, true, false, false, false⟩ ∧
    (exPump.chart.capacity 1100 1000 false).exceeds = true := by decide +kernel

example : exPump.chart.low.first.head < exPump.chart.high.first.head ∧
    exPump.chart.low.first.rate ≤ exPump.chart.high.first.rate ∧ exPump.chart.high.first.rate ≤ exPump.chart.low.maxRate ∧
    exPump.chart.low.maxRate < exPump.chart.high.maxRate := by decide +kernel

end Verif.C61
