import Verif.Props.C61
import Verif.Props.C62
import Verif.Model.GenericChart

/-!
# C63: the generic compressor chart of a design point

The chart of a design point is the unified chart stretched to that point; stretching a chart stretches its corrections
and does not change any verdict.
-/

namespace Verif.C63
open Verif.Time Verif.Table Verif.TableLemmas Verif.Charts Verif.Polyline Verif.C56 Verif.C57 Verif.C58 Verif.C61 Verif.C62

/-! ## Specification: stretching -/

/-- A point stretched by `k` along the rate axis and `m` along the head axis. -/
def stretchPt (k m : ℚ) (p : Pt) : Pt := ⟨k * p.rate, m * p.head, p.eff⟩

def stretchCurve (k m : ℚ) (c : Curve) : Curve := ⟨c.speed, stretchPt k m c.first, c.rest.map (stretchPt k m)⟩

def stretch (k m : ℚ) (ch : Chart) : Chart := ⟨stretchCurve k m ch.low, ch.more.map (stretchCurve k m)⟩

/-! ## Interpolation under stretching -/

def sc (k m : ℚ) (r : ℚ × ℚ) : ℚ × ℚ := (k * r.1, m * r.2)

theorem insertRow_sc {k m : ℚ} (hk : 0 < k) (r : ℚ × ℚ) (l : List (ℚ × ℚ)) :
    insertRow (sc k m r) (l.map (sc k m)) = (insertRow r l).map (sc k m) := by
  induction l with
  | nil => rfl
  | cons s l ih =>
    simp only [List.map_cons, insertRow]
    have : (sc k m r).1 < (sc k m s).1 ↔ r.1 < s.1 := mul_lt_mul_iff_right₀ hk
    by_cases h : r.1 < s.1
    · rw [if_pos (this.mpr h), if_pos h]; rfl
    · rw [if_neg (fun h' => h (this.mp h')), if_neg h, ih]; rfl

theorem sortRows_sc {k m : ℚ} (hk : 0 < k) (l : List (ℚ × ℚ)) : sortRows (l.map (sc k m)) = (sortRows l).map (sc k m) := by
  unfold sortRows
  have : ∀ (l acc : List (ℚ × ℚ)), (l.map (sc k m)).foldl (fun acc r => insertRow r acc) (acc.map (sc k m)) =
      (l.foldl (fun acc r => insertRow r acc) acc).map (sc k m) := by
    intro l
    induction l with
    | nil => intro acc; rfl
    | cons r l ih =>
      intro acc
      simp only [List.map_cons, List.foldl_cons]
      rw [insertRow_sc hk, ih]
  exact this l []

theorem segment_sc {k m : ℚ} (hk : 0 < k) (a : ℚ × ℚ) (l : List (ℚ × ℚ)) (x : ℚ) :
    segment (sc k m a) (l.map (sc k m)) (k * x) = m * segment a l x := by
  induction l generalizing a with
  | nil => rfl
  | cons b l ih =>
    simp only [List.map_cons, segment]
    have h1 : k * x < (sc k m b).1 ↔ x < b.1 := mul_lt_mul_iff_right₀ hk
    have h2 : k * x = (sc k m a).1 ↔ x = a.1 := by
      constructor
      · intro h; exact mul_left_cancel₀ (ne_of_gt hk) h
      · intro h; rw [h]; rfl
    by_cases h : x < b.1
    · rw [if_pos (h1.mpr h), if_pos h]
      by_cases h' : x = a.1
      · rw [if_pos (h2.mpr h'), if_pos h']; rfl
      · rw [if_neg (fun q => h' (h2.mp q)), if_neg h']
        unfold sc
        simp only
        by_cases h0 : b.1 - a.1 = 0
        · have : k * b.1 - k * a.1 = 0 := by rw [← mul_sub, h0, mul_zero]
          rw [h0, this]; simp
        · have hk' := ne_of_gt hk
          have e : k * b.1 - k * a.1 = k * (b.1 - a.1) := by ring
          rw [e]
          field_simp
    · rw [if_neg (fun q => h (h1.mp q)), if_neg h, ih]

theorem interp_sc {k m : ℚ} (hk : 0 < k) (l : List (ℚ × ℚ)) (below above x : ℚ) :
    interp (l.map (sc k m)) (m * below) (m * above) (k * x) = m * interp l below above x := by
  unfold interp lookup
  rw [sortRows_sc hk]
  cases hs : sortRows l with
  | nil => simp
  | cons a rest =>
    simp only [List.map_cons]
    have h1 : k * x < (sc k m a).1 ↔ x < a.1 := mul_lt_mul_iff_right₀ hk
    have hl : ((sc k m a :: rest.map (sc k m)).getLast (by simp)) = sc k m ((a :: rest).getLast (by simp)) := by
      have := List.getLast_map (f := sc k m) (l := a :: rest) (by simp)
      simpa using this
    have h2 : ((sc k m a :: rest.map (sc k m)).getLast (by simp)).1 < k * x ↔ ((a :: rest).getLast (by simp)).1 < x := by
      rw [hl]; exact mul_lt_mul_iff_right₀ hk
    by_cases h : x < a.1
    · rw [if_pos (h1.mpr h), if_pos h]
    · rw [if_neg (fun q => h (h1.mp q)), if_neg h]
      by_cases h' : ((a :: rest).getLast (by simp)).1 < x
      · rw [if_pos (h2.mpr h'), if_pos h']
      · rw [if_neg (fun q => h' (h2.mp q)), if_neg h']
        exact segment_sc hk a rest x

/-! ## Curves and charts -/

theorem stretch_pts (k m : ℚ) (c : Curve) : (stretchCurve k m c).pts = c.pts.map (stretchPt k m) := rfl

theorem stretch_last (k m : ℚ) (c : Curve) : (stretchCurve k m c).last = stretchPt k m c.last := by
  unfold Curve.last
  exact List.getLast_map (f := stretchPt k m) (l := c.pts) (by simp [Curve.pts])

theorem stretch_curves (k m : ℚ) (ch : Chart) : (stretch k m ch).curves = ch.curves.map (stretchCurve k m) := rfl

theorem stretch_high (k m : ℚ) (ch : Chart) : (stretch k m ch).high = stretchCurve k m ch.high := by
  unfold Chart.high
  exact List.getLast_map (f := stretchCurve k m) (l := ch.curves) (by simp [Chart.curves])

theorem rows_rate (k m : ℚ) (c : Curve) : ((stretchCurve k m c).pts.map fun p => (p.rate, p.head)) =
    (c.pts.map fun p => (p.rate, p.head)).map (sc k m) := by
  rw [stretch_pts, List.map_map, List.map_map]; rfl

theorem rows_head (k m : ℚ) (c : Curve) : ((stretchCurve k m c).pts.map fun p => (p.head, p.rate)) =
    (c.pts.map fun p => (p.head, p.rate)).map (sc m k) := by
  rw [stretch_pts, List.map_map, List.map_map]; rfl

section
variable {k m : ℚ} (hk : 0 < k) (hm : 0 < m) (ch : Chart)
include hk hm

theorem minRateAt_stretch (head : ℚ) : (stretch k m ch).minRateAt (m * head) = k * ch.minRateAt head := by
  unfold Chart.minRateAt
  rw [stretch_high]
  exact interp_sc hm [(ch.low.first.head, ch.low.first.rate), (ch.high.first.head, ch.high.first.rate)] _ _ _

theorem minRateNoChokeAt_stretch (head : ℚ) :
    (stretch k m ch).minRateNoChokeAt (m * head) = k * ch.minRateNoChokeAt head := by
  unfold Chart.minRateNoChokeAt
  rw [stretch_high, show (stretch k m ch).low = stretchCurve k m ch.low from rfl, stretch_last]
  have : (((stretchCurve k m ch.low).pts.reverse.map fun p => (p.head, p.rate)) ++
      [((stretchCurve k m ch.high).first.head, (stretchCurve k m ch.high).first.rate)]) =
      ((ch.low.pts.reverse.map fun p => (p.head, p.rate)) ++ [(ch.high.first.head, ch.high.first.rate)]).map (sc m k) := by
    rw [List.map_append, List.map_map, stretch_pts, ← List.map_reverse, List.map_map]
    rfl
  rw [this]
  exact interp_sc hm _ _ _ _

theorem minHeadAt_stretch (rate : ℚ) : (stretch k m ch).minHeadAt (k * rate) = m * ch.minHeadAt rate := by
  unfold Chart.minHeadAt
  rw [stretch_high, show (stretch k m ch).low = stretchCurve k m ch.low from rfl]
  unfold Curve.maxRate
  simp only [stretch_last, rows_rate]
  have hc : (stretchPt k m ch.low.last).rate < (stretchPt k m ch.high.last).rate ↔ ch.low.last.rate < ch.high.last.rate :=
    mul_lt_mul_iff_right₀ hk
  by_cases h : ch.low.last.rate < ch.high.last.rate
  · rw [if_pos (hc.mpr h), if_pos h]
    have : ((ch.low.pts.map fun p => (p.rate, p.head)).map (sc k m)) ++
        [((stretchPt k m ch.high.last).rate, (stretchPt k m ch.high.last).head)] =
        ((ch.low.pts.map fun p => (p.rate, p.head)) ++ [(ch.high.last.rate, ch.high.last.head)]).map (sc k m) := by
      rw [List.map_append]; rfl
    rw [this]
    exact interp_sc hk _ _ _ _
  · rw [if_neg (fun q => h (hc.mp q)), if_neg h]
    exact interp_sc hk _ _ _ _

theorem maxHeadAt_stretch (rate : ℚ) : (stretch k m ch).maxHeadAt (k * rate) = m * ch.maxHeadAt rate := by
  unfold Chart.maxHeadAt
  rw [stretch_high]
  simp only [stretch_last, rows_rate]
  exact interp_sc hk _ _ _ _

theorem highByHead_stretch : (stretch k m ch).highByHead = ch.highByHead.map (sc m k) := by
  unfold Chart.highByHead
  rw [stretch_high, rows_head, sortRows_sc hm]

theorem headD_sc (l : List (ℚ × ℚ)) : ((l.map (sc m k)).headD (0, 0)).2 = k * (l.headD (0, 0)).2 := by
  cases l <;> simp [sc]

theorem getLastD_sc (l : List (ℚ × ℚ)) : ((l.map (sc m k)).getLastD (0, 0)).2 = k * (l.getLastD (0, 0)).2 := by
  rcases List.eq_nil_or_concat l with rfl | ⟨l', a, rfl⟩
  · simp
  · simp [sc]

theorem maxRateAt_stretch (head : ℚ) : (stretch k m ch).maxRateAt (m * head) = k * ch.maxRateAt head := by
  unfold Chart.maxRateAt
  rw [highByHead_stretch hk hm, headD_sc hk hm, getLastD_sc hk hm]
  exact interp_sc hm _ _ _ _

theorem maxRateNoChokeAt_stretch (head : ℚ) :
    (stretch k m ch).maxRateNoChokeAt (m * head) = k * ch.maxRateNoChokeAt head := by
  unfold Chart.maxRateNoChokeAt
  rw [highByHead_stretch hk hm, getLastD_sc hk hm, show (stretch k m ch).low = stretchCurve k m ch.low from rfl, stretch_last]
  exact interp_sc hm ((ch.low.last.head, ch.low.last.rate) :: ch.highByHead) _ _ _

/-- **Stretching**: measuring rates and heads in other units stretches the corrected point and leaves every flag and
the verdict as they are, for every chart. -/
theorem C63_stretch (rate head : ℚ) (extrapolate : Bool) :
    (stretch k m ch).capacity (k * rate) (m * head) extrapolate =
      { (ch.capacity rate head extrapolate) with
        rate := k * (ch.capacity rate head extrapolate).rate, head := m * (ch.capacity rate head extrapolate).head } := by
  have hmaxk : ∀ a b : ℚ, max (k * a) (k * b) = k * max a b := fun a b => (mul_max_of_nonneg _ _ (le_of_lt hk)).symm
  have hmaxm : ∀ a b : ℚ, max (m * a) (m * b) = m * max a b := fun a b => (mul_max_of_nonneg _ _ (le_of_lt hm)).symm
  have hltk : ∀ a b : ℚ, k * a < k * b ↔ a < b := fun a b => mul_lt_mul_iff_right₀ hk
  have hltm : ∀ a b : ℚ, m * a < m * b ↔ a < b := fun a b => mul_lt_mul_iff_right₀ hm
  unfold Chart.capacity Chart.maximumRate
  cases extrapolate
  · simp only [Bool.false_eq_true, if_false, minRateNoChokeAt_stretch hk hm, hmaxk, minHeadAt_stretch hk hm,
      maxRateNoChokeAt_stretch hk hm, maxHeadAt_stretch hk hm, hltk, hltm]
  · simp only [if_true, minRateAt_stretch hk hm, hmaxk, minHeadAt_stretch hk hm, hmaxm,
      maxRateAt_stretch hk hm, maxHeadAt_stretch hk hm, hltk, hltm]

end

/-! ## The unified chart -/

theorem generic_stretch (rate head eff : ℚ) : genericChart rate head eff = stretch rate head (genericChart 1 1 eff) := by
  simp [genericChart, stretch, stretchCurve, stretchPt, scalePt, Function.comp_def]

theorem stretch_increasing {k m : ℚ} (hk : 0 < k) {c : Curve} (h : Increasing c) : Increasing (stretchCurve k m c) := by
  unfold Increasing at *
  rw [stretch_pts, List.pairwise_map]
  exact h.imp fun {a b} q => by unfold stretchPt; exact mul_lt_mul_of_pos_left q hk

theorem stretch_drops {k m : ℚ} (hm : 0 < m) {c : Curve} (h : Drops c) : Drops (stretchCurve k m c) := by
  unfold Drops at *
  rw [stretch_pts, List.pairwise_map]
  exact h.imp fun {a b} q => by unfold stretchPt; exact mul_lt_mul_of_pos_left q hm

theorem unit_walled (eff : ℚ) : Increasing (genericChart 1 1 eff).low ∧ Increasing (genericChart 1 1 eff).high ∧
    Drops (genericChart 1 1 eff).low ∧ Drops (genericChart 1 1 eff).high := by
  refine ⟨?_, ?_, ?_, ?_⟩
  · have : ((slowFirst :: slowRest).map (·.1)).Pairwise (· < ·) := by decide +kernel
    rw [List.pairwise_map] at this
    unfold Increasing
    change ((slowFirst :: slowRest).map (scalePt 1 1 eff)).Pairwise _
    rw [List.pairwise_map]
    exact this.imp fun {a b} q => by unfold scalePt; simpa using q
  · have : ((fastFirst :: fastRest).map (·.1)).Pairwise (· < ·) := by decide +kernel
    rw [List.pairwise_map] at this
    unfold Increasing
    change ((fastFirst :: fastRest).map (scalePt 1 1 eff)).Pairwise _
    rw [List.pairwise_map]
    exact this.imp fun {a b} q => by unfold scalePt; simpa using q
  · have : ((slowFirst :: slowRest).map (·.2)).Pairwise (fun a b => b < a) := by decide +kernel
    rw [List.pairwise_map] at this
    unfold Drops
    change ((slowFirst :: slowRest).map (scalePt 1 1 eff)).Pairwise _
    rw [List.pairwise_map]
    exact this.imp fun {a b} q => by unfold scalePt; simpa using q
  · have : ((fastFirst :: fastRest).map (·.2)).Pairwise (fun a b => b < a) := by decide +kernel
    rw [List.pairwise_map] at this
    unfold Drops
    change ((fastFirst :: fastRest).map (scalePt 1 1 eff)).Pairwise _
    rw [List.pairwise_map]
    exact this.imp fun {a b} q => by unfold scalePt; simpa using q

/-- The corners of the chart of a design point. -/
theorem corners (r h eff : ℚ) :
    (genericChart r h eff).low.first = ⟨r * 0.498902665, h * 0.558852888, eff⟩ ∧
    (genericChart r h eff).low.last = ⟨r * 0.730015921, h * 0.409004665, eff⟩ ∧
    (genericChart r h eff).high.first = ⟨r * 0.878913798, h * 1.289869247, eff⟩ ∧
    (genericChart r h eff).high.last = ⟨r * 1.323778851, h * 0.809949924, eff⟩ := ⟨rfl, rfl, rfl, rfl⟩

theorem generic_high (r h eff : ℚ) : (genericChart r h eff).high = stretchCurve r h (genericChart 1 1 eff).high := by
  rw [generic_stretch]; exact stretch_high _ _ _

theorem generic_low (r h eff : ℚ) : (genericChart r h eff).low = stretchCurve r h (genericChart 1 1 eff).low := by
  rw [generic_stretch]; rfl

/-- **Shape**: the chart of every design point has the ordinary shape, so that its verdicts are those of the envelope
(`C61_capacity`, `C61_capacity_no_choke`). -/
theorem C63_shape (r h eff : ℚ) (hr : 0 < r) (hh : 0 < h) : Walled (genericChart r h eff) := by
  obtain ⟨u1, u2, u3, u4⟩ := unit_walled eff
  have i1 : Increasing (genericChart r h eff).low := by rw [generic_low]; exact stretch_increasing hr u1
  have i2 : Increasing (genericChart r h eff).high := by rw [generic_high]; exact stretch_increasing hr u2
  have d1 : Drops (genericChart r h eff).low := by rw [generic_low]; exact stretch_drops hh u3
  have d2 : Drops (genericChart r h eff).high := by rw [generic_high]; exact stretch_drops hh u4
  obtain ⟨c1, c2, c3, c4⟩ := corners r h eff
  have f1 := drops_falls d1
  have f2 := drops_falls d2
  exact {
    low := i1
    falls := f2
    above := by
      intro x _
      have a := ((C56_range _ _ _ x).1 fun p hp => ⟨last_head_le f1 p hp, head_le_first f1 p hp⟩).2
      have b := ((C56_range _ _ _ x).1 fun p hp => ⟨last_head_le f2 p hp, head_le_first f2 p hp⟩).1
      rw [c1] at a
      rw [c4] at b
      simp only at a b
      nlinarith
    reach := by unfold Curve.maxRate; rw [c2, c4]; simp only; nlinarith
    last := by rw [c2, c4]; simp only; nlinarith
    increasing := i2
    drops := d2
    lowFalls := f1
    wall := by rw [c2, c4]; simp only; nlinarith }

theorem generic_sound (r h eff : ℚ) (hr : noFlow ≤ r * 0.730015921) : Sound (genericChart r h eff) := by
  have hr0 : 0 < r := by
    have : (0 : ℚ) < noFlow := by unfold noFlow; norm_num
    by_contra hcon
    have := not_lt.mp hcon
    nlinarith
  obtain ⟨u1, u2, -, -⟩ := unit_walled eff
  obtain ⟨c1, c2, c3, c4⟩ := corners r h eff
  have hmem : ∀ c ∈ (genericChart r h eff).curves, c = (genericChart r h eff).low ∨ c = (genericChart r h eff).high := by
    intro c hc
    simpa [genericChart, Chart.curves, Chart.high] using hc
  refine ⟨?_, ?_, ?_, ?_⟩
  · unfold Faster
    simp [genericChart, Chart.curves]; norm_num
  · intro c hc
    rcases hmem c hc with rfl | rfl
    · rw [generic_low]; exact stretch_increasing hr0 u1
    · rw [generic_high]; exact stretch_increasing hr0 u2
  · intro c hc
    unfold Curve.minRate Curve.maxRate
    rcases hmem c hc with rfl | rfl
    · rw [c1, c2]; simp only; nlinarith
    · rw [c3, c4]; simp only; nlinarith
  · intro c hc
    unfold Curve.maxRate
    rcases hmem c hc with rfl | rfl
    · rw [c2]; exact hr
    · rw [c4]; simp only; nlinarith

theorem zip_scale (r h eff : ℚ) (l : List (ℚ × ℚ)) :
    List.zipWith (fun x (he : ℚ × ℚ) => Pt.mk x he.1 he.2) (l.map fun p => r * p.1)
      ((l.map fun p => h * p.2).zip (l.map fun _ => eff)) = l.map (scalePt r h eff) := by
  induction l with
  | nil => rfl
  | cons a l ih => simp only [List.map_cons, List.zip_cons_cons, List.zipWith_cons_cons, ih]; rfl

theorem make_scaled (r h eff speed : ℚ) (hr : 0 ≤ r) (he : 0 ≤ eff ∧ eff ≤ 1) (p : ℚ × ℚ) (l : List (ℚ × ℚ)) (hl : l ≠ [])
    (hs : (p :: l).Pairwise fun a b => a.1 < b.1) :
    Curve.make ((p :: l).map fun p => r * p.1) ((p :: l).map fun p => h * p.2) ((p :: l).map fun _ => eff) speed =
      .ok ⟨speed, scalePt r h eff p, l.map (scalePt r h eff)⟩ := by
  unfold Curve.make
  rw [if_neg (by
    simp only [not_not]
    intro e hm
    obtain ⟨-, -, rfl⟩ := List.mem_map.mp hm
    exact he), if_neg (by simp), if_neg (by
      have := List.length_pos_iff.mpr hl
      simp only [List.length_map, List.length_cons]
      omega), zip_scale]
  have hsorted : (((p :: l).map (scalePt r h eff)).Pairwise fun a b => a.rate ≤ b.rate) := by
    rw [List.pairwise_map]
    exact hs.imp fun {a b} q => by unfold scalePt; exact mul_le_mul_of_nonneg_left (le_of_lt q) hr
  rw [hsorted.insertionSort_eq]
  rfl

/-- **Design point**: the chart exists exactly for an efficiency between 0 and 1. Its slowest and fastest curve pass
through the points of the unified curves, each stretched to the design point; the efficiency is the same everywhere. -/
theorem C63_design (r h eff : ℚ) (hr : 0 < r) :
    (¬ (0 ≤ eff ∧ eff ≤ 1) → genericFromDesign r h eff = .error .validation) ∧
    (0 ≤ eff ∧ eff ≤ 1 → ∃ ch, genericFromDesign r h eff = .ok ch ∧ ch = genericChart r h eff ∧
      (∀ p ∈ slowFirst :: slowRest, ch.low.headAt (r * p.1) = h * p.2) ∧
      (∀ p ∈ fastFirst :: fastRest, ch.high.headAt (r * p.1) = h * p.2) ∧
      (∀ near rate head, ch.effAt near rate head = eff) ∧
      ∀ v rate x, At ch v rate x → x.2 = eff) := by
  constructor
  · intro he
    unfold genericFromDesign
    have : Curve.make ((slowFirst :: slowRest).map fun p => r * p.1) ((slowFirst :: slowRest).map fun p => h * p.2)
        ((slowFirst :: slowRest).map fun _ => eff) 75 = .error .validation := by
      unfold Curve.make
      rw [if_pos (by
        intro hall
        exact he (hall eff (List.mem_map.mpr ⟨slowFirst, List.mem_cons_self, rfl⟩)))]
    simp only [this, Bind.bind, Except.bind]
  · intro he
    refine ⟨genericChart r h eff, ?_, rfl, ?_, ?_, ?_, ?_⟩
    · unfold genericFromDesign
      have e1 := make_scaled r h eff 75 (le_of_lt hr) he slowFirst slowRest (by simp [slowRest]) (by decide +kernel)
      have e2 := make_scaled r h eff 105 (le_of_lt hr) he fastFirst fastRest (by simp [fastRest]) (by decide +kernel)
      simp only [e1, e2, Bind.bind, Except.bind, Pure.pure, Except.pure]
      rfl
    · intro p hp
      have hi : Increasing (genericChart r h eff).low := by
        rw [generic_low]; exact stretch_increasing hr (unit_walled eff).1
      exact (C56_points _ hi (scalePt r h eff p) (List.mem_map.mpr ⟨p, hp, rfl⟩)).1
    · intro p hp
      have hi : Increasing (genericChart r h eff).high := by
        rw [generic_high]; exact stretch_increasing hr (unit_walled eff).2.1
      exact (C56_points _ hi (scalePt r h eff p) (List.mem_map.mpr ⟨p, hp, rfl⟩)).1
    · intro near rate head
      have hall : ∀ c ∈ (genericChart r h eff).curves, ∀ p ∈ c.pts, eff ≤ p.eff ∧ p.eff ≤ eff := by
        intro c hc p hp
        simp only [genericChart, Chart.curves, List.mem_cons, List.not_mem_nil, or_false] at hc
        have : p.eff = eff := by
          rcases hc with rfl | rfl
          · obtain ⟨q, -, rfl⟩ := List.mem_map.mp (show p ∈ (slowFirst :: slowRest).map (scalePt r h eff) from hp); rfl
          · obtain ⟨q, -, rfl⟩ := List.mem_map.mp (show p ∈ (fastFirst :: fastRest).map (scalePt r h eff) from hp); rfl
        rw [this]; exact ⟨le_refl _, le_refl _⟩
      obtain ⟨a, b⟩ := C56_chart_efficiency near (genericChart r h eff) eff eff rate head hall
      exact le_antisymm b a
    · intro v rate x hx
      have hall : ∀ c ∈ (genericChart r h eff).curves, ∀ p ∈ c.pts, eff ≤ p.eff ∧ p.eff ≤ eff := by
        intro c hc p hp
        simp only [genericChart, Chart.curves, List.mem_cons, List.not_mem_nil, or_false] at hc
        have : p.eff = eff := by
          rcases hc with rfl | rfl
          · obtain ⟨q, -, rfl⟩ := List.mem_map.mp (show p ∈ (slowFirst :: slowRest).map (scalePt r h eff) from hp); rfl
          · obtain ⟨q, -, rfl⟩ := List.mem_map.mp (show p ∈ (fastFirst :: fastRest).map (scalePt r h eff) from hp); rfl
        rw [this]; exact ⟨le_refl _, le_refl _⟩
      obtain ⟨a, b⟩ := (C62_range _ v rate eff eff x hx).2 hall
      exact le_antisymm b a

/-- Capacity does not look at efficiencies. -/
theorem capacity_eff (r h eff eff' rate head : ℚ) (b : Bool) :
    (genericChart r h eff).capacity rate head b = (genericChart r h eff').capacity rate head b := rfl

/-- **The design point is a good point**: it is within capacity, with and without choking, and needs no correction. -/
theorem C63_design_point (r h eff : ℚ) (hr : 0 < r) (hh : 0 < h) (b : Bool) :
    (genericChart r h eff).capacity r h b = ⟨r, h, false, false, false, false, false⟩ := by
  have key := C63_stretch hr hh (genericChart 1 1 1) 1 1 b
  rw [← generic_stretch, mul_one, mul_one] at key
  rw [capacity_eff r h eff 1, key]
  have : (genericChart 1 1 1).capacity 1 1 b = ⟨1, 1, false, false, false, false, false⟩ := by
    cases b <;> decide +kernel
  rw [this]
  simp

example : genericFromDesign 5000 120000 (3 / 4) = .ok (genericChart 5000 120000 (3 / 4)) ∧
    ((genericChart 5000 120000 (3 / 4)).capacity 6000 150000 true).exceeds = true ∧
    ((genericChart 5000 120000 (3 / 4)).capacity 1000 60000 true).recirculates = true := by decide +kernel

end Verif.C63
