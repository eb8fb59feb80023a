import Verif.Props.C57

/-!
# C58: the envelope of a chart

The limits of a chart are the lines a user draws: the minimum flow line joins the first points of the slowest and the
fastest curve, the minimum head line is the slowest curve followed by the stone wall, the maximum head line is the
fastest curve, and the largest rate at a head is read off the same curve. The limits at a speed interpolate the ends of
the neighbouring curves. A pump on a chart whose lines do not cross is valid exactly below the fastest curve.
-/

namespace Verif.C58
open Verif.Time Verif.Table Verif.TableLemmas Verif.Charts Verif.Polyline Verif.Pumps Verif.C56 Verif.C57

/-! ## Specification -/

/-- `(x, y)` divides the segment from `(x0, y0)` to `(x1, y1)` in proportion. -/
def OnSegment (x0 y0 x1 y1 x y : ℚ) : Prop := x0 ≤ x ∧ x ≤ x1 ∧ (y - y0) * (x1 - x0) = (y1 - y0) * (x - x0)

theorem onLine_segment {a b : ℚ × ℚ} {x : ℚ} (h : a.1 < b.1) (h1 : a.1 ≤ x) (h2 : x ≤ b.1) :
    OnSegment a.1 a.2 b.1 b.2 x (onLine a b x) := by
  refine ⟨h1, h2, ?_⟩
  have : b.1 - a.1 ≠ 0 := by linarith
  unfold onLine
  field_simp
  ring

/-- Interpolation between two points. -/
theorem interp_two {a b : ℚ × ℚ} (h : a.1 < b.1) {below above x : ℚ} (h1 : a.1 ≤ x) (h2 : x ≤ b.1) :
    interp [a, b] below above x = onLine a b x := by
  have hf : Functional [a, b] := by
    intro r hr s hs he
    simp only [List.mem_cons, List.not_mem_nil, or_false] at hr hs
    rcases hr with rfl | rfl <;> rcases hs with rfl | rfl <;> first | rfl | linarith
  apply interp_eq hf
  rcases eq_or_lt_of_le h1 with rfl | h1
  · left; rw [onLine_left]; simp
  · rcases eq_or_lt_of_le h2 with rfl | h2
    · left; rw [onLine_right h]; simp
    · right
      refine ⟨a, by simp, b, by simp, h1, h2, ?_, rfl⟩
      intro r hr
      simp only [List.mem_cons, List.not_mem_nil, or_false] at hr
      rcases hr with rfl | rfl
      · left; exact le_refl _
      · right; exact le_refl _

/-- **Minimum flow line**: constant below the first point of the slowest curve and above the first point of the fastest
curve, straight between them. -/
theorem C58_minimum_flow (ch : Chart) (h : ch.low.first.head < ch.high.first.head) (head : ℚ) :
    (head ≤ ch.low.first.head → ch.minRateAt head = ch.low.first.rate) ∧
    (ch.high.first.head ≤ head → ch.minRateAt head = ch.high.first.rate) ∧
    (ch.low.first.head ≤ head → head ≤ ch.high.first.head →
      OnSegment ch.low.first.head ch.low.first.rate ch.high.first.head ch.high.first.rate head (ch.minRateAt head)) := by
  unfold Chart.minRateAt
  refine ⟨fun hh => ?_, fun hh => ?_, fun h1 h2 => ?_⟩
  · rcases eq_or_lt_of_le hh with rfl | hh
    · rw [interp_two h (le_refl _) (le_of_lt h)]
      exact onLine_left
    · apply interp_below (by simp)
      intro r hr
      simp only [List.mem_cons, List.not_mem_nil, or_false] at hr
      rcases hr with rfl | rfl
      · exact hh
      · exact lt_trans hh h
  · rcases eq_or_lt_of_le hh with rfl | hh
    · rw [interp_two h (le_of_lt h) (le_refl _)]
      exact onLine_right (a := (ch.low.first.head, ch.low.first.rate)) (b := (ch.high.first.head, ch.high.first.rate)) h
    · apply interp_above (by simp)
      intro r hr
      simp only [List.mem_cons, List.not_mem_nil, or_false] at hr
      rcases hr with rfl | rfl
      · exact lt_trans h hh
      · exact hh
  · rw [interp_two h h1 h2]
    exact onLine_segment (a := (ch.low.first.head, ch.low.first.rate)) (b := (ch.high.first.head, ch.high.first.rate)) h h1 h2

/-- The minimum flow line of a single curve is its first rate. -/
theorem C58_minimum_flow_single (c : Curve) (head : ℚ) : (Chart.mk c []).minRateAt head = c.first.rate := by
  have hh : (Chart.mk c []).high = c := rfl
  unfold Chart.minRateAt
  rw [hh]
  have := interp_bounds (rows := [(c.first.head, c.first.rate), (c.first.head, c.first.rate)]) (below := c.first.rate)
    (above := c.first.rate) (x := head) (lo := c.first.rate) (hi := c.first.rate) (by simp) (by simp) (by simp) (by simp)
  exact le_antisymm this.2 this.1

/-! ## A table extended to the right -/

/-- Interpolation in a table is not changed by a further row to the right. -/
theorem between_append {rows : List (ℚ × ℚ)} {e : ℚ × ℚ} (he : ∀ r ∈ rows, r.1 < e.1) {x y : ℚ} (h : Between rows x y) :
    Between (rows ++ [e]) x y := by
  rcases h with m | ⟨a, ha, b, hb, h1, h2, h3, rfl⟩
  · left; simp [m]
  · right
    refine ⟨a, by simp [ha], b, by simp [hb], h1, h2, ?_, rfl⟩
    intro r hr
    rcases List.mem_append.mp hr with hr | hr
    · exact h3 r hr
    · rw [List.mem_singleton] at hr
      subst hr
      right; exact le_of_lt (he b hb)

theorem functional_append {rows : List (ℚ × ℚ)} {e : ℚ × ℚ} (hf : Functional rows) (he : ∀ r ∈ rows, r.1 < e.1) :
    Functional (rows ++ [e]) := by
  intro r hr s hs heq
  rcases List.mem_append.mp hr with hr' | hr' <;> rcases List.mem_append.mp hs with hs' | hs'
  · exact hf r hr' s hs' heq
  · rw [List.mem_singleton] at hs'; subst hs'; have := he r hr'; linarith
  · rw [List.mem_singleton] at hr'; subst hr'; have := he s hs'; linarith
  · rw [List.mem_singleton] at hr' hs'; rw [hr', hs']

/-- To the right of the last row the new segment applies. -/
theorem interp_append_right {rows : List (ℚ × ℚ)} {e l : ℚ × ℚ} (hf : Functional rows) (he : ∀ r ∈ rows, r.1 < e.1)
    (hl : l ∈ rows) (hmax : ∀ r ∈ rows, r.1 ≤ l.1) {below above x : ℚ} (h1 : l.1 ≤ x) (h2 : x ≤ e.1) :
    OnSegment l.1 l.2 e.1 e.2 x (interp (rows ++ [e]) below above x) := by
  have hf' := functional_append hf he
  have hle := he l hl
  have key : interp (rows ++ [e]) below above x = onLine l e x := by
    apply interp_eq hf'
    rcases eq_or_lt_of_le h1 with rfl | h1
    · left; rw [onLine_left]; simp [hl]
    · rcases eq_or_lt_of_le h2 with rfl | h2
      · left; rw [onLine_right hle]; simp
      · right
        refine ⟨l, by simp [hl], e, by simp, h1, h2, ?_, rfl⟩
        intro r hr
        rcases List.mem_append.mp hr with hr | hr
        · left; exact hmax r hr
        · rw [List.mem_singleton] at hr
          subst hr
          right; exact le_refl _
  rw [key]
  exact onLine_segment hle h1 h2

/-- Inside the old table nothing changes. -/
theorem interp_append_left {rows : List (ℚ × ℚ)} {e : ℚ × ℚ} (hf : Functional rows) (he : ∀ r ∈ rows, r.1 < e.1)
    {below above above' x : ℚ} (hne : rows ≠ []) (h2 : ∃ r ∈ rows, x ≤ r.1) :
    interp (rows ++ [e]) below above x = interp rows below above' x := by
  rcases interp_spec rows below above' x hne with ⟨h, h'⟩ | ⟨h, -⟩ | ⟨-, -, h'⟩
  · rw [h']
    apply interp_below (by simp)
    intro r hr
    rcases List.mem_append.mp hr with hr | hr
    · exact h r hr
    · rw [List.mem_singleton] at hr
      subst hr
      obtain ⟨s, hs⟩ := List.exists_mem_of_ne_nil rows hne
      exact lt_trans (h s hs) (he s hs)
  · obtain ⟨r, hr, hx⟩ := h2
    have := h r hr
    linarith
  · exact interp_eq (functional_append hf he) (between_append he h')

theorem mem_rows {val : Pt → ℚ} {c : Curve} {r : ℚ × ℚ} (h : r ∈ rows val c) : ∃ p ∈ c.pts, r = (p.rate, val p) := by
  obtain ⟨p, hp, he⟩ := List.mem_map.mp h
  exact ⟨p, hp, he.symm⟩

/-- **Minimum head line**: the slowest curve up to its largest rate; from there, if the fastest curve reaches further,
the stone wall: the straight line between the last points, and constant beyond. -/
theorem C58_minimum_head (ch : Chart) (h : Increasing ch.low) (rate : ℚ) :
    (rate ≤ ch.low.maxRate → ch.minHeadAt rate = ch.low.headAt rate) ∧
    (ch.high.maxRate ≤ ch.low.maxRate → ch.minHeadAt rate = ch.low.headAt rate) ∧
    (ch.low.maxRate < ch.high.maxRate → ch.low.maxRate ≤ rate → rate ≤ ch.high.maxRate →
      OnSegment ch.low.maxRate ch.low.last.head ch.high.maxRate ch.high.last.head rate (ch.minHeadAt rate)) ∧
    (ch.low.maxRate < ch.high.maxRate → ch.high.maxRate ≤ rate → ch.minHeadAt rate = ch.high.last.head) := by
  have hle := le_last (increasing_le h)
  have hf := functional_rows (·.head) h
  have hbound : ∀ r ∈ rows (·.head) ch.low, r.1 ≤ ch.low.maxRate := by
    intro r hr
    obtain ⟨p, hp, rfl⟩ := mem_rows hr
    exact hle p hp
  have hlast : (ch.low.last.rate, ch.low.last.head) ∈ rows (·.head) ch.low := List.mem_map.mpr ⟨_, last_mem _, rfl⟩
  refine ⟨fun hr => ?_, fun hr => ?_, fun hlt h1 h2 => ?_, fun hlt h1 => ?_⟩
  · unfold Chart.minHeadAt
    split
    · rename_i hlt
      change ch.low.maxRate < ch.high.maxRate at hlt
      exact interp_append_left (e := (ch.high.last.rate, ch.high.last.head)) hf (fun r hr => lt_of_le_of_lt (hbound r hr) hlt) (rows_ne _ _) ⟨_, hlast, hr⟩
    · rfl
  · unfold Chart.minHeadAt
    rw [if_neg (show ¬ ch.low.last.rate < ch.high.maxRate from not_lt.mpr hr)]
    rfl
  · unfold Chart.minHeadAt
    rw [if_pos (show ch.low.last.rate < ch.high.maxRate from hlt)]
    exact interp_append_right (e := (ch.high.last.rate, ch.high.last.head)) hf
      (fun r hr => lt_of_le_of_lt (hbound r hr) hlt) hlast hbound h1 h2
  · rcases eq_or_lt_of_le h1 with he | h1
    · have hseg : OnSegment ch.low.maxRate ch.low.last.head ch.high.maxRate ch.high.last.head rate (ch.minHeadAt rate) := by
        unfold Chart.minHeadAt
        rw [if_pos (show ch.low.last.rate < ch.high.maxRate from hlt)]
        exact interp_append_right (e := (ch.high.last.rate, ch.high.last.head)) hf
          (fun r hr => lt_of_le_of_lt (hbound r hr) hlt) hlast hbound (by rw [← he]; exact le_of_lt hlt) (le_of_eq he.symm)
      obtain ⟨-, -, hs⟩ := hseg
      rw [← he] at hs ⊢
      have hd : ch.high.maxRate - ch.low.maxRate ≠ 0 := by linarith
      have := mul_right_cancel₀ hd hs
      linarith
    · unfold Chart.minHeadAt
      rw [if_pos (show ch.low.last.rate < ch.high.maxRate from hlt)]
      apply interp_above (by simp [Curve.pts])
      intro r hr
      rcases List.mem_append.mp hr with hr | hr
      · exact lt_trans (lt_of_le_of_lt (hbound r hr) hlt) h1
      · rw [List.mem_singleton] at hr
        subst hr
        exact h1

/-- Sorting the rows does not change the interpolation. -/
theorem interp_sorted {rows : List (ℚ × ℚ)} (hf : Functional rows) (hne : rows ≠ []) {below above x : ℚ} :
    interp (sortRows rows) below above x = interp rows below above x := by
  have hmem := mem_sortRows rows
  have hne' : sortRows rows ≠ [] := by
    obtain ⟨s, hs⟩ := List.exists_mem_of_ne_nil rows hne
    exact List.ne_nil_of_mem ((hmem s).mpr hs)
  rcases interp_spec rows below above x hne with ⟨h, h'⟩ | ⟨h, h'⟩ | ⟨-, -, h'⟩
  · rw [h']; exact interp_below hne' (fun r hr => h r ((hmem r).mp hr))
  · rw [h']; exact interp_above hne' (fun r hr => h r ((hmem r).mp hr))
  · apply interp_eq
    · intro r hr s hs
      exact hf r ((hmem r).mp hr) s ((hmem s).mp hs)
    · rcases h' with m | ⟨a, ha, b, hb, h1, h2, h3, he⟩
      · left; exact (hmem _).mpr m
      · right
        exact ⟨a, (hmem a).mpr ha, b, (hmem b).mpr hb, h1, h2, fun r hr => h3 r ((hmem r).mp hr), he⟩

theorem swap_functional {c : Curve} (h : Increasing c) (hd : Drops c) :
    Functional (c.pts.map fun p => (p.head, p.rate)) := by
  have := functional_swap (dropping_rows h hd) (functional_rows (·.head) h)
  rwa [swap_rows] at this

/-- The ends of the rows sorted by head. -/
theorem sorted_ends {c : Curve} (h : Increasing c) (hd : Drops c) :
    (sortRows (c.pts.map fun p => (p.head, p.rate))).headD (0, 0) = (c.last.head, c.last.rate) ∧
    (sortRows (c.pts.map fun p => (p.head, p.rate))).getLastD (0, 0) = (c.first.head, c.first.rate) := by
  have hf := swap_functional h hd
  have hmem := mem_sortRows (c.pts.map fun p => (p.head, p.rate))
  have hs := sortRows_sorted (c.pts.map fun p => (p.head, p.rate))
  have hlast : (c.last.head, c.last.rate) ∈ c.pts.map fun p => (p.head, p.rate) := List.mem_map.mpr ⟨_, last_mem c, rfl⟩
  have hfirst : (c.first.head, c.first.rate) ∈ c.pts.map fun p => (p.head, p.rate) :=
    List.mem_map.mpr ⟨_, first_mem c, rfl⟩
  have hlo := last_head_le (drops_falls hd)
  have hhi := head_le_first (drops_falls hd)
  cases hc : sortRows (c.pts.map fun p => (p.head, p.rate)) with
  | nil => rw [hc] at hmem; exact absurd ((hmem _).mpr hlast) (by simp)
  | cons a l =>
    rw [hc] at hmem hs
    constructor
    · simp only [List.headD_cons]
      have ha := (hmem a).mp (by simp)
      apply hf a ha _ hlast
      apply le_antisymm
      · have hl := (hmem _).mpr hlast
        rcases List.mem_cons.mp hl with he | hl'
        · rw [← he]
        · exact (List.pairwise_cons.mp hs).1 _ hl'
      · obtain ⟨p, hp, rfl⟩ := List.mem_map.mp ha
        exact hlo p hp
    · rw [List.getLastD_eq_getLast?, List.getLast?_eq_getLast_of_ne_nil (by simp)]
      simp only [Option.getD_some]
      have hg := (hmem _).mp (List.getLast_mem (l := a :: l) (by simp))
      apply hf _ hg _ hfirst
      apply le_antisymm
      · obtain ⟨p, hp, he⟩ := List.mem_map.mp hg
        rw [← he]
        exact hhi p hp
      · have hfst := (hmem _).mpr hfirst
        have : ∀ (l : List (ℚ × ℚ)) (hne : l ≠ []), l.Pairwise (fun a b => a.1 ≤ b.1) → ∀ r ∈ l, r.1 ≤ (l.getLast hne).1 := by
          intro l
          induction l with
          | nil => intro hne; exact absurd rfl hne
          | cons b l ih =>
            intro hne hp r hr
            rcases List.eq_nil_or_concat l with rfl | hl
            · simp at hr; simp [hr]
            · have hne' : l ≠ [] := by obtain ⟨_, _, rfl⟩ := hl; simp
              rw [List.getLast_cons hne']
              rcases List.mem_cons.mp hr with rfl | hr
              · exact (List.pairwise_cons.mp hp).1 _ (List.getLast_mem hne')
              · exact ih hne' (List.pairwise_cons.mp hp).2 r hr
        exact this _ _ hs _ hfst

/-- **Largest rate at a head**: read off the fastest curve, with the fastest curve as the maximum head line both ways;
below the curve its largest rate, above the curve its smallest rate. -/
theorem C58_maximum_rate (ch : Chart) (h : Increasing ch.high) (hd : Drops ch.high) (head : ℚ) :
    ch.maxRateAt head = ch.high.rateAt head ∧
    (head < ch.high.last.head → ch.maxRateAt head = ch.high.maxRate) ∧
    (ch.high.first.head < head → ch.maxRateAt head = ch.high.minRate) ∧
    (ch.high.last.head ≤ head → head ≤ ch.high.first.head →
      ch.maxHeadAt (ch.maxRateAt head) = head ∧ ch.high.minRate ≤ ch.maxRateAt head ∧ ch.maxRateAt head ≤ ch.high.maxRate) := by
  have heq : ch.maxRateAt head = ch.high.rateAt head := by
    unfold Chart.maxRateAt Chart.highByHead
    obtain ⟨e1, e2⟩ := sorted_ends h hd
    rw [e1, e2, interp_sorted (swap_functional h hd) (by simp [Curve.pts])]
    rfl
  have hlo := last_head_le (drops_falls hd)
  have hhi := head_le_first (drops_falls hd)
  rw [heq]
  refine ⟨rfl, fun hh => ?_, fun hh => ?_, fun h1 h2 => ?_⟩
  · apply interp_below (by simp [Curve.pts])
    intro r hr
    obtain ⟨p, hp, rfl⟩ := List.mem_map.mp hr
    exact lt_of_lt_of_le hh (hlo p hp)
  · apply interp_above (by simp [Curve.pts])
    intro r hr
    obtain ⟨p, hp, rfl⟩ := List.mem_map.mp hr
    exact lt_of_le_of_lt (hhi p hp) hh
  · refine ⟨(C56_inverse ch.high h hd).2 head h1 h2, ?_⟩
    refine interp_bounds (by simp [Curve.pts]) ?_ ⟨first_le (increasing_le h) _ (last_mem _), le_refl _⟩
      ⟨le_refl _, le_last (increasing_le h) _ (first_mem _)⟩
    intro r hr
    obtain ⟨p, hp, rfl⟩ := List.mem_map.mp hr
    exact ⟨first_le (increasing_le h) p hp, le_last (increasing_le h) p hp⟩

/-- The lines of the chart do not cross: the fastest curve is nowhere below the slowest one, and ends not below it. -/
structure Ordered (ch : Chart) : Prop where
  low : Increasing ch.low
  falls : Falls ch.high
  above : ∀ x, x ≤ ch.low.maxRate → ch.low.headAt x ≤ ch.high.headAt x
  reach : ch.low.maxRate ≤ ch.high.maxRate
  last : ch.low.last.head ≤ ch.high.last.head

theorem head_ge_last {c : Curve} (hf : Falls c) (x : ℚ) : c.last.head ≤ c.headAt x := by
  have := (C56_range c c.last.head c.first.head x).1 (fun p hp => ⟨last_head_le hf p hp, head_le_first hf p hp⟩)
  exact this.1

/-- **Nothing between the lines is lost**: on an ordered chart the minimum head is nowhere above the maximum head, and a
running pump is valid exactly when the required head is not above the fastest curve at the operating rate and the rate
not beyond the end of some curve. -/
theorem C58_valid_region (ch : Chart) (ho : Ordered ch) :
    (∀ x, ch.minHeadAt x ≤ ch.maxHeadAt x) ∧
    (∀ (near : Curve → ℚ → ℚ → ℚ × ℚ) (p : Pump) (s : Liquid) (d : ℚ) (r : Result), p.chart = ch → Physical s → 0 < s.mass →
      p.evaluate near s d = .ok r →
      (r.isValid = true ↔ r.requiredHead ≤ ch.high.headAt r.rate ∧ ∃ c ∈ ch.curves, r.rate ≤ c.maxRate)) := by
  have hle : ∀ x, ch.minHeadAt x ≤ ch.maxHeadAt x := by
    intro x
    obtain ⟨m1, m2, m3, m4⟩ := C58_minimum_head ch ho.low x
    change _ ≤ ch.high.headAt x
    rcases le_or_gt x ch.low.maxRate with hx | hx
    · rw [m1 hx]; exact ho.above x hx
    · have hl : ch.minHeadAt x ≤ ch.high.last.head := by
        rcases eq_or_lt_of_le ho.reach with he | hlt
        · rw [m2 (le_of_eq he.symm)]
          have h1 : ch.low.headAt x = ch.low.last.head := by
            apply interp_above (rows_ne _ _)
            intro r hr
            obtain ⟨p, hp, rfl⟩ := mem_rows hr
            exact lt_of_le_of_lt (le_last (increasing_le ho.low) p hp) hx
          rw [h1]; exact ho.last
        · rcases le_or_gt x ch.high.maxRate with hx' | hx'
          · obtain ⟨-, -, hs⟩ := m3 hlt (le_of_lt hx) hx'
            have hd : 0 < ch.high.maxRate - ch.low.maxRate := by linarith
            by_contra hcon
            have hcon := not_le.mp hcon
            have h1 := ho.last
            nlinarith
          · rw [m4 hlt (le_of_lt hx')]
      exact le_trans hl (head_ge_last ho.falls x)
  refine ⟨hle, ?_⟩
  rintro near p s d r rfl hs hm h
  rw [(C57_status near p s hs hm d r h).1]
  obtain ⟨-, -, -, -, h4, -⟩ := run hs hm h
  have : r.head ≤ p.chart.maxHeadAt r.rate ↔ r.requiredHead ≤ p.chart.high.headAt r.rate := by
    rw [h4]
    constructor
    · intro hh; exact le_trans (le_max_left _ _) hh
    · intro hh; exact max_le hh (hle _)
  rw [this]

/-! ## Limits at a speed -/

/-- Speeds increase strictly. -/
def Faster (ch : Chart) : Prop := ch.curves.Pairwise fun a b => a.speed < b.speed

theorem speed_inj {l : List Curve} (h : l.Pairwise fun a b => a.speed < b.speed) :
    ∀ a ∈ l, ∀ b ∈ l, a.speed = b.speed → a = b := by
  induction l with
  | nil => intro a ha; simp at ha
  | cons k l ih =>
    obtain ⟨h1, h2⟩ := List.pairwise_cons.mp h
    intro a ha b hb he
    rcases List.mem_cons.mp ha with ha' | ha' <;> rcases List.mem_cons.mp hb with hb' | hb'
    · rw [ha', hb']
    · have := h1 b hb'; rw [ha'] at he; linarith
    · have := h1 a ha'; rw [hb'] at he; linarith
    · exact ih h2 a ha' b hb' he

theorem speed_functional (ch : Chart) (h : Faster ch) (val : Curve → ℚ) :
    Functional (ch.curves.map fun k => (k.speed, val k)) := by
  intro r hr s hs he
  obtain ⟨a, ha, rfl⟩ := List.mem_map.mp hr
  obtain ⟨b, hb, rfl⟩ := List.mem_map.mp hs
  simp only at he
  rw [speed_inj h a ha b hb he]

/-- **Limits at a speed**: at the speed of a curve they are the ends of that curve; at every speed they lie between the
smallest and the largest end of the curves; between two neighbouring curves they divide their ends in proportion. -/
theorem C58_speed_limits (ch : Chart) (h : Faster ch) :
    (∀ c ∈ ch.curves, ch.minRateAtSpeed c.speed = c.minRate ∧ ch.maxRateAtSpeed c.speed = c.maxRate) ∧
    (∀ a ∈ ch.curves, ∀ b ∈ ch.curves, a.speed < b.speed → (∀ c ∈ ch.curves, c.speed ≤ a.speed ∨ b.speed ≤ c.speed) →
      ∀ v, a.speed ≤ v → v ≤ b.speed → OnSegment a.speed a.minRate b.speed b.minRate v (ch.minRateAtSpeed v) ∧
        OnSegment a.speed a.maxRate b.speed b.maxRate v (ch.maxRateAtSpeed v)) := by
  have gen : ∀ (val : Curve → ℚ) (below above : ℚ),
      (∀ c ∈ ch.curves, interp (ch.curves.map fun k => (k.speed, val k)) below above c.speed = val c) ∧
      (∀ a ∈ ch.curves, ∀ b ∈ ch.curves, a.speed < b.speed → (∀ c ∈ ch.curves, c.speed ≤ a.speed ∨ b.speed ≤ c.speed) →
        ∀ v, a.speed ≤ v → v ≤ b.speed → OnSegment a.speed (val a) b.speed (val b) v
          (interp (ch.curves.map fun k => (k.speed, val k)) below above v)) := by
    intro val below above
    have hf := speed_functional ch h val
    refine ⟨fun c hc => interp_at hf (r := (c.speed, val c)) (List.mem_map.mpr ⟨c, hc, rfl⟩), ?_⟩
    intro a ha b hb hab hn v h1 h2
    have key : interp (ch.curves.map fun k => (k.speed, val k)) below above v = onLine (a.speed, val a) (b.speed, val b) v := by
      apply interp_eq hf
      rcases eq_or_lt_of_le h1 with rfl | h1
      · left; rw [show onLine (a.speed, val a) (b.speed, val b) a.speed = val a from onLine_left]
        exact List.mem_map.mpr ⟨a, ha, rfl⟩
      · rcases eq_or_lt_of_le h2 with rfl | h2
        · left
          rw [show onLine (a.speed, val a) (b.speed, val b) b.speed = val b from
            onLine_right (a := (a.speed, val a)) (b := (b.speed, val b)) hab]
          exact List.mem_map.mpr ⟨b, hb, rfl⟩
        · right
          refine ⟨_, List.mem_map.mpr ⟨a, ha, rfl⟩, _, List.mem_map.mpr ⟨b, hb, rfl⟩, h1, h2, ?_, rfl⟩
          intro r hr
          obtain ⟨c, hc, rfl⟩ := List.mem_map.mp hr
          exact hn c hc
    rw [key]
    exact onLine_segment (a := (a.speed, val a)) (b := (b.speed, val b)) hab h1 h2
  obtain ⟨g1, g2⟩ := gen (·.minRate) ch.low.minRate ch.high.minRate
  obtain ⟨g3, g4⟩ := gen (·.maxRate) ch.low.maxRate ch.high.maxRate
  exact ⟨fun c hc => ⟨g1 c hc, g3 c hc⟩, fun a ha b hb hab hn v h1 h2 => ⟨g2 a ha b hb hab hn v h1 h2, g4 a ha b hb hab hn v h1 h2⟩⟩

/-- **Neighbouring curves**: the curve below a speed is the fastest one not above it, the curve above is the slowest one
not below it, and they are missing exactly when there is none; a curve at the exact speed is found whenever there is
one. -/
theorem C58_neighbours (ch : Chart) (h : Faster ch) (v : ℚ) (c : Curve) :
    (ch.curveBelow v = some c ↔ c ∈ ch.curves ∧ c.speed ≤ v ∧ ∀ k ∈ ch.curves, k.speed ≤ v → k.speed ≤ c.speed) ∧
    (ch.curveAbove v = some c ↔ c ∈ ch.curves ∧ v ≤ c.speed ∧ ∀ k ∈ ch.curves, v ≤ k.speed → c.speed ≤ k.speed) ∧
    (ch.curveAt v = some c ↔ c ∈ ch.curves ∧ c.speed = v) := by
  have inj : ∀ a ∈ ch.curves, ∀ b ∈ ch.curves, a.speed = b.speed → a = b := speed_inj h
  -- the head of a list ordered by R is the R-least one
  have gen : ∀ (l : List Curve) (R : Curve → Curve → Prop) (P : Curve → Prop) [DecidablePred P],
      (∀ k, R k k) → l.Pairwise R → (∀ a ∈ l, ∀ b ∈ l, R a b → R b a → a = b) →
      ((l.filter fun k => decide (P k)).head? = some c ↔ c ∈ l ∧ P c ∧ ∀ k ∈ l, P k → R c k) := by
    intro l R P _ hR hl hinj
    have hl' : (l.filter fun k => decide (P k)).Pairwise R := hl.sublist List.filter_sublist
    have hm : ∀ k, k ∈ (l.filter fun k => decide (P k)) ↔ k ∈ l ∧ P k := by intro k; simp
    cases hc : l.filter fun k => decide (P k) with
    | nil =>
      rw [hc] at hm
      simp only [List.head?_nil, reduceCtorEq, false_iff]
      rintro ⟨h1, h2, -⟩
      exact absurd ((hm c).mpr ⟨h1, h2⟩) (by simp)
    | cons a as =>
      rw [hc] at hm hl'
      simp only [List.head?_cons, Option.some.injEq]
      constructor
      · rintro rfl
        obtain ⟨h1, h2⟩ := (hm a).mp (by simp)
        refine ⟨h1, h2, fun k hk hp => ?_⟩
        rcases List.mem_cons.mp ((hm k).mpr ⟨hk, hp⟩) with rfl | hk'
        · exact hR _
        · exact (List.pairwise_cons.mp hl').1 k hk'
      · rintro ⟨h1, h2, h3⟩
        obtain ⟨a1, a2⟩ := (hm a).mp (by simp)
        have hca := h3 a a1 a2
        rcases List.mem_cons.mp ((hm c).mpr ⟨h1, h2⟩) with rfl | hk'
        · rfl
        · exact hinj a a1 c h1 ((List.pairwise_cons.mp hl').1 c hk') hca
  refine ⟨?_, ?_, ?_⟩
  · unfold Chart.curveBelow
    have hrev : ch.curves.reverse.Pairwise fun a b => b.speed ≤ a.speed :=
      List.pairwise_reverse.mpr (h.imp fun h => le_of_lt h)
    have := gen ch.curves.reverse (fun a b => b.speed ≤ a.speed) (fun k => k.speed ≤ v) (fun _ => le_refl _) hrev
      (fun a ha b hb h1 h2 => inj a (List.mem_reverse.mp ha) b (List.mem_reverse.mp hb) (le_antisymm h2 h1))
    rw [this]
    simp only [List.mem_reverse]
  · unfold Chart.curveAbove
    exact gen ch.curves (fun a b => a.speed ≤ b.speed) (fun k => v ≤ k.speed) (fun _ => le_refl _)
      (h.imp fun h => le_of_lt h) (fun a ha b hb h1 h2 => inj a ha b hb (le_antisymm h1 h2))
  · unfold Chart.curveAt
    have := gen ch.curves (fun a b => a.speed ≤ b.speed) (fun k => k.speed = v) (fun _ => le_refl _)
      (h.imp fun h => le_of_lt h) (fun a ha b hb h1 h2 => inj a ha b hb (le_antisymm h1 h2))
    simp only [beq_eq_decide] at this ⊢
    rw [this]
    constructor
    · rintro ⟨h1, h2, -⟩; exact ⟨h1, h2⟩
    · rintro ⟨h1, h2⟩; exact ⟨h1, h2, fun k _ hk => by rw [h2, hk]⟩

/-! ## Examples -/

example : (exPump.chart.minRateAt 4800, exPump.chart.minHeadAt 700, exPump.chart.maxRateAt 4800) =
    (260, exPump.chart.low.headAt 700, exPump.chart.high.rateAt 4800) := by decide +kernel

/-- The two curves of the example do not cross. -/
theorem exPump_ordered : Ordered exPump.chart := by
  refine ⟨?_, ?_, ?_, ?_, ?_⟩
  · unfold Increasing; decide +kernel
  · unfold Falls; decide +kernel
  · intro x _
    have h1 := (C56_range exPump.chart.low 1500 3000 x).1 (by decide +kernel)
    have h2 := (C56_range exPump.chart.high 3500 6000 x).1 (by decide +kernel)
    linarith [h1.2, h2.1]
  · decide +kernel
  · decide +kernel

example : Faster exPump.chart ∧ Increasing exPump.chart.low ∧ Increasing exPump.chart.high ∧ Drops exPump.chart.high := by
  unfold Faster Increasing Drops; decide +kernel

/-! ## Finding -/

/-- **Finding**: above the maximum head of the chart the largest rate is the smallest rate of the fastest curve, a
positive number, although no rate at all can be pumped there. -/
theorem C58_above_maximum : exPump.chart.high.first.head < 99999 ∧ 0 < exPump.chart.maxRateAt 99999 ∧
    ∀ c ∈ exPump.chart.curves, ∀ p ∈ c.pts, p.head < 99999 := by decide +kernel

end Verif.C58
