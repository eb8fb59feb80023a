import Mathlib.Tactic.Linarith
import Mathlib.Tactic.NormNum
import Mathlib.Tactic.Ring
import Mathlib.Tactic.FieldSimp
import Mathlib.Tactic.LinearCombination
import Verif.Model.Planar
import Verif.Lemmas.Polyline
import Verif.Props.C80

/-!
# C81: sampled compressors with two varying variables

A sampled compressor with two varying variables has a value exactly where some operating point in the sampled area does
at least what is asked for, and the value belongs to such a point.
-/

namespace Verif.C81
open Verif.Rates Verif.Table Verif.TableLemmas Verif.Polyline Verif.Sampled Verif.Planar

/-! ## Specification -/

/-- The sampled area: the sampled points and everything on a straight line between two points of the area. -/
inductive Area (pts : List (ℚ × ℚ)) : ℚ × ℚ → Prop
  | sample {p} (h : p ∈ pts) : Area pts p
  | mix {p q} (k : ℚ) (h0 : 0 ≤ k) (h1 : k ≤ 1) (hp : Area pts p) (hq : Area pts q) :
      Area pts ((1 - k) * p.1 + k * q.1, (1 - k) * p.2 + k * q.2)

/-- Blends of the sampled rows. -/
inductive Blend (rows : List (ℚ × ℚ × ℚ)) : ℚ × ℚ × ℚ → Prop
  | sample {p} (h : p ∈ rows) : Blend rows p
  | mix {p q} (k : ℚ) (h0 : 0 ≤ k) (h1 : k ≤ 1) (hp : Blend rows p) (hq : Blend rows q) :
      Blend rows ((1 - k) * p.1 + k * q.1, (1 - k) * p.2.1 + k * q.2.1, (1 - k) * p.2.2 + k * q.2.2)

/-- The left side of a facet's inequality. -/
def val (f : Facet) (z : ℚ × ℚ) : ℚ := f.a * z.1 + f.b * z.2 + f.c

/-- The two points of a facet. -/
def Ends (h : Hull) (f : Facet) (p q : ℚ × ℚ) : Prop := h.points[f.i]? = some p ∧ h.points[f.j]? = some q

/-- What `scipy.spatial.ConvexHull` promises: the facets bound the sampled area, each goes through two different points, and
where the area touches the line of a facet there is a facet in the same direction. -/
structure IsHull (pts : List (ℚ × ℚ)) (h : Hull) : Prop where
  points : h.points = pts
  area : ∀ z, Area pts z ↔ ∀ f ∈ h.facets, val f z ≤ 0
  ends : ∀ f ∈ h.facets, ∃ p q, Ends h f p q ∧ p ≠ q ∧ val f p = 0 ∧ val f q = 0
  edges : ∀ f ∈ h.facets, ∀ z, Area pts z → val f z = 0 → ∃ g ∈ h.facets, ∃ m : ℚ, 0 < m ∧ g.a = m * f.a ∧ g.b = m * f.b ∧
    ∃ p q, Ends h g p q ∧ ∃ k : ℚ, 0 ≤ k ∧ k ≤ 1 ∧ z = ((1 - k) * p.1 + k * q.1, (1 - k) * p.2 + k * q.2)

/-- What `LinearNDInterpolator` promises: a value exactly in the sampled area, and the value is a blend of samples. -/
structure Interpolates (rows : List (ℚ × ℚ × ℚ)) (f : ℚ × ℚ → Fl) : Prop where
  domain : ∀ z, (f z).isSome ↔ Area (rows.map fun r => (r.1, r.2.1)) z
  blend : ∀ z e, f z = some e → Blend rows (z.1, z.2, e)

/-- What is promised of the geometric library. -/
structure Promise (g : Geometry) : Prop where
  hull : ∀ rows h, g.hull rows = .ok h → IsHull (rows.map fun r => (r.1, r.2.1)) h
  interp : ∀ rows, Interpolates rows (g.interp rows)

/-- The middle of the smallest rectangle around the points. -/
def Middle (pts : List (ℚ × ℚ)) (m : ℚ × ℚ) : Prop :=
  ∃ l ∈ pts, ∃ r ∈ pts, ∃ d ∈ pts, ∃ u ∈ pts, (∀ p ∈ pts, l.1 ≤ p.1 ∧ p.1 ≤ r.1 ∧ d.2 ≤ p.2 ∧ p.2 ≤ u.2) ∧
    m = ((r.1 + l.1) / 2, (u.2 + d.2) / 2)

/-- The middle is not on the edge of the area: on both sides of every line through it there are samples. -/
def Round (pts : List (ℚ × ℚ)) : Prop :=
  ∀ m, Middle pts m → ∀ a b : ℚ, (a ≠ 0 ∨ b ≠ 0) → ∃ p ∈ pts, 0 < a * (p.1 - m.1) + b * (p.2 - m.2)

/-- The operating point `z` does what is asked for by `x` and `y`: at least the rate, at least the discharge pressure, at
most the suction pressure. -/
def Serves : Kind → (x y : ℚ) → (z : ℚ × ℚ) → Prop
  | .ratePd, x, y, z => x ≤ z.1 ∧ y ≤ z.2
  | .ratePs, x, y, z => x ≤ z.1 ∧ z.2 ≤ y
  | .psPd, x, y, z => z.1 ≤ x ∧ y ≤ z.2

/-! ## Points and facets along an axis -/

/-- The point with a coordinate `v` along the axis and `t` along the other. -/
def mk (ax : Axis) (v t : ℚ) : ℚ × ℚ := match ax with
  | .zero => (v, t)
  | .one => (t, v)

@[simp] theorem other_other (ax : Axis) : ax.other.other = ax := by cases ax <;> rfl
@[simp] theorem coord_mk (ax : Axis) (v t : ℚ) : coord (mk ax v t) ax = v := by cases ax <;> rfl
@[simp] theorem coord_mk_other (ax : Axis) (v t : ℚ) : coord (mk ax v t) ax.other = t := by cases ax <;> rfl
theorem mk_coord (ax : Axis) (z : ℚ × ℚ) : mk ax (coord z ax) (coord z ax.other) = z := by cases ax <;> rfl
theorem mk_other (ax : Axis) (v t : ℚ) : mk ax.other v t = mk ax t v := by cases ax <;> rfl

theorem val_eq (ax : Axis) (f : Facet) (z : ℚ × ℚ) :
    val f z = f.normal ax * coord z ax + f.normal ax.other * coord z ax.other + f.c := by
  cases ax <;> simp only [val, Facet.normal, coord, Axis.other]; ring

theorem coord_mix (ax : Axis) (p q : ℚ × ℚ) (k : ℚ) :
    coord ((1 - k) * p.1 + k * q.1, (1 - k) * p.2 + k * q.2) ax = (1 - k) * coord p ax + k * coord q ax := by
  cases ax <;> rfl

theorem area_bound {pts : List (ℚ × ℚ)} {a b c : ℚ} (h : ∀ p ∈ pts, a * p.1 + b * p.2 ≤ c) {z : ℚ × ℚ}
    (hz : Area pts z) : a * z.1 + b * z.2 ≤ c := by
  induction hz with
  | sample hp => exact h _ hp
  | @mix p q k h0 h1 _ _ ih1 ih2 =>
    have e : a * ((1 - k) * p.1 + k * q.1) + b * ((1 - k) * p.2 + k * q.2) =
      (1 - k) * (a * p.1 + b * p.2) + k * (a * q.1 + b * q.2) := by ring
    simp only
    rw [e]
    nlinarith

theorem exists_bound (pts : List (ℚ × ℚ)) (a b : ℚ) : ∃ c, ∀ p ∈ pts, a * p.1 + b * p.2 ≤ c := by
  induction pts with
  | nil => exact ⟨0, by simp⟩
  | cons p l ih =>
    obtain ⟨c, hc⟩ := ih
    refine ⟨max c (a * p.1 + b * p.2), fun q hq => ?_⟩
    rcases List.mem_cons.1 hq with rfl | hq
    · exact le_max_right _ _
    · exact (hc q hq).trans (le_max_left _ _)

theorem area_coord_bound (pts : List (ℚ × ℚ)) (s : ℚ) (ax : Axis) : ∃ c, ∀ z, Area pts z → s * coord z ax ≤ c := by
  cases ax with
  | zero =>
    obtain ⟨c, hc⟩ := exists_bound pts s 0
    refine ⟨c, fun z hz => ?_⟩
    have := area_bound hc hz
    simp only [coord]; linarith
  | one =>
    obtain ⟨c, hc⟩ := exists_bound pts 0 s
    refine ⟨c, fun z hz => ?_⟩
    have := area_bound hc hz
    simp only [coord]; linarith

/-- Points of the area with an intermediate coordinate. -/
theorem area_between {pts : List (ℚ × ℚ)} (ax : Axis) {p q : ℚ × ℚ} (hp : Area pts p) (hq : Area pts q) {t : ℚ}
    (h1 : coord p ax ≤ t) (h2 : t ≤ coord q ax) : ∃ k : ℚ, 0 ≤ k ∧ k ≤ 1 ∧ ∃ z, Area pts z ∧ coord z ax = t ∧
      coord z ax.other = (1 - k) * coord p ax.other + k * coord q ax.other := by
  rcases eq_or_lt_of_le (h1.trans h2) with e | hlt
  · exact ⟨0, le_rfl, zero_le_one, p, hp, by linarith, by ring⟩
  · have hd : 0 < coord q ax - coord p ax := by linarith
    set k := (t - coord p ax) / (coord q ax - coord p ax) with hk
    have hk0 : 0 ≤ k := div_nonneg (by linarith) hd.le
    have hk1 : k ≤ 1 := by rw [hk, div_le_one hd]; linarith
    refine ⟨k, hk0, hk1, _, .mix k hk0 hk1 hp hq, ?_, coord_mix _ _ _ _⟩
    rw [coord_mix]
    have : k * (coord q ax - coord p ax) = t - coord p ax := by rw [hk]; field_simp
    linarith

theorem normal_scale {f g : Facet} {m : ℚ} (ha : g.a = m * f.a) (hb : g.b = m * f.b) (ax : Axis) :
    g.normal ax = m * f.normal ax := by cases ax <;> simpa [Facet.normal]

/-! ## Curves along the edge of the area -/

section
variable {pts : List (ℚ × ℚ)} {h : Hull}

theorem mem_pointsOf {fs : List Facet} {p : ℚ × ℚ} :
    p ∈ h.pointsOf fs ↔ ∃ f ∈ fs, h.points[f.i]? = some p ∨ h.points[f.j]? = some p := by
  unfold Hull.pointsOf
  simp only [List.mem_filterMap, List.mem_filter, List.mem_range, List.any_eq_true, Bool.or_eq_true, beq_iff_eq]
  constructor
  · rintro ⟨k, ⟨-, f, hf, rfl | rfl⟩, hk⟩
    · exact ⟨f, hf, .inl hk⟩
    · exact ⟨f, hf, .inr hk⟩
  · rintro ⟨f, hf, hk | hk⟩
    · exact ⟨f.i, ⟨(List.getElem?_eq_some_iff.1 hk).1, f, hf, .inl rfl⟩, hk⟩
    · exact ⟨f.j, ⟨(List.getElem?_eq_some_iff.1 hk).1, f, hf, .inr rfl⟩, hk⟩

theorem mem_asRows {ps : List (ℚ × ℚ)} {x : Axis} {r : ℚ × ℚ} :
    r ∈ asRows ps x ↔ ∃ p ∈ ps, r = (coord p x, coord p x.other) := by
  unfold asRows
  rw [mem_sortRows]
  simp only [List.mem_map, eq_comm]

/-- A set of facets that bound the area along one direction, with every facet that goes the same way as one of them. -/
structure Family (h : Hull) (fs : List Facet) (ax : Axis) (s : ℚ) : Prop where
  sub : ∀ f ∈ fs, f ∈ h.facets ∧ s * f.normal ax < 0
  scale : ∀ f ∈ fs, ∀ g ∈ h.facets, ∀ m : ℚ, 0 < m → g.a = m * f.a → g.b = m * f.b → g ∈ fs

theorem extreme (hh : IsHull pts h) {ax : Axis} {s : ℚ} (hs : s = 1 ∨ s = -1) {f : Facet} (hf : f ∈ h.facets)
    (hn : s * f.normal ax < 0) {z w : ℚ × ℚ} (hz : val f z = 0) (hw : Area pts w)
    (he : coord w ax.other = coord z ax.other) : s * coord z ax ≤ s * coord w ax := by
  have h1 := (hh.area w).1 hw f hf
  rw [val_eq ax] at hz h1
  rw [he] at h1
  rcases hs with rfl | rfl <;> nlinarith

/-- The rows of a curve are points of the area on one of the facets. -/
theorem row_point (hh : IsHull pts h) {fs : List Facet} {ax : Axis} {s : ℚ} (hF : Family h fs ax s) {r : ℚ × ℚ}
    (hr : r ∈ asRows (h.pointsOf fs) ax.other) :
    Area pts (mk ax r.2 r.1) ∧ ∃ f ∈ fs, val f (mk ax r.2 r.1) = 0 := by
  obtain ⟨p, hp, rfl⟩ := mem_asRows.1 hr
  obtain ⟨f, hf, hk⟩ := mem_pointsOf.1 hp
  have hm : p ∈ pts := by
    rw [← hh.points]
    rcases hk with hk | hk <;> exact List.mem_of_getElem? hk
  obtain ⟨p', q', ⟨e1, e2⟩, -, v1, v2⟩ := hh.ends f (hF.sub f hf).1
  have hv : val f p = 0 := by
    rcases hk with hk | hk
    · rw [e1] at hk; cases hk; exact v1
    · rw [e2] at hk; cases hk; exact v2
  simp only [other_other, mk_coord]
  exact ⟨.sample hm, f, hf, hv⟩

/-- Around a point of the area on one of the facets there are two rows on one facet. -/
theorem rows_around (hh : IsHull pts h) {fs : List Facet} {ax : Axis} {s : ℚ} (hF : Family h fs ax s) {z : ℚ × ℚ}
    (hz : Area pts z) {f : Facet} (hf : f ∈ fs) (hv : val f z = 0) :
    ∃ g ∈ fs, val g z = 0 ∧ ∃ r1 ∈ asRows (h.pointsOf fs) ax.other, ∃ r2 ∈ asRows (h.pointsOf fs) ax.other,
      val g (mk ax r1.2 r1.1) = 0 ∧ val g (mk ax r2.2 r2.1) = 0 ∧ r1.1 ≤ coord z ax.other ∧ coord z ax.other ≤ r2.1 := by
  obtain ⟨g, hg, m, hm, ha, hb, p, q, ⟨e1, e2⟩, k, hk0, hk1, rfl⟩ := hh.edges f (hF.sub f hf).1 z hz hv
  have hgf : g ∈ fs := hF.scale f hf g hg m hm ha hb
  obtain ⟨p', q', ⟨e1', e2'⟩, -, v1, v2⟩ := hh.ends g hg
  rw [e1] at e1'; cases e1'
  rw [e2] at e2'; cases e2'
  have hp : (coord p ax.other, coord p ax) ∈ asRows (h.pointsOf fs) ax.other :=
    mem_asRows.2 ⟨p, mem_pointsOf.2 ⟨g, hgf, .inl e1⟩, by rw [other_other]⟩
  have hq : (coord q ax.other, coord q ax) ∈ asRows (h.pointsOf fs) ax.other :=
    mem_asRows.2 ⟨q, mem_pointsOf.2 ⟨g, hgf, .inr e2⟩, by rw [other_other]⟩
  have vz : val g ((1 - k) * p.1 + k * q.1, (1 - k) * p.2 + k * q.2) = 0 := by
    have : val g ((1 - k) * p.1 + k * q.1, (1 - k) * p.2 + k * q.2) = (1 - k) * val g p + k * val g q := by
      unfold val; ring
    rw [this, v1, v2]; ring
  refine ⟨g, hgf, vz, ?_⟩
  rw [coord_mix]
  rcases le_total (coord p ax.other) (coord q ax.other) with hle | hle
  · refine ⟨_, hp, _, hq, by simpa [mk_coord] using v1, by simpa [mk_coord] using v2, ?_, ?_⟩ <;> simp only <;> nlinarith
  · refine ⟨_, hq, _, hp, by simpa [mk_coord] using v2, by simpa [mk_coord] using v1, ?_, ?_⟩ <;> simp only <;> nlinarith

/-- Interpolating between the rows gives the point of the area on the facet. -/
theorem between_point (hh : IsHull pts h) {fs : List Facet} {ax : Axis} {s : ℚ} (hs : s = 1 ∨ s = -1)
    (hF : Family h fs ax s) {t v : ℚ} (hb : Between (asRows (h.pointsOf fs) ax.other) t v) {z : ℚ × ℚ} (hz : Area pts z)
    (hzt : coord z ax.other = t) {f : Facet} (hf : f ∈ fs) (hv : val f z = 0) : v = coord z ax := by
  have uniq : ∀ {f g : Facet} {z w : ℚ × ℚ}, f ∈ fs → g ∈ fs → Area pts z → Area pts w → val f z = 0 → val g w = 0 →
      coord z ax.other = coord w ax.other → coord z ax = coord w ax := by
    intro f g z w hf hg hz hw hfz hgw he
    have h1 := extreme hh hs (hF.sub f hf).1 (hF.sub f hf).2 hfz hw he.symm
    have h2 := extreme hh hs (hF.sub g hg).1 (hF.sub g hg).2 hgw hz he
    rcases hs with rfl | rfl <;> linarith
  rcases hb with hm | ⟨r1, hr1, r2, hr2, h1, h2, h3, rfl⟩
  · obtain ⟨ha, g, hg, hgv⟩ := row_point hh hF hm
    have := uniq hg hf ha hz hgv hv (by simp [hzt])
    simpa using this
  · obtain ⟨g, hg, hgz, q1, hq1, q2, hq2, g1, g2, l1, l2⟩ := rows_around hh hF hz hf hv
    rw [hzt] at l1 l2
    have k1 : q1.1 ≤ r1.1 := by rcases h3 q1 hq1 with k | k <;> linarith
    have k2 : r2.1 ≤ q2.1 := by rcases h3 q2 hq2 with k | k <;> linarith
    have hn := (hF.sub g hg).2
    have hn0 : g.normal ax ≠ 0 := by rintro e; rw [e] at hn; simp at hn
    -- every row between the two rows of the facet lies on the facet
    have on : ∀ r ∈ asRows (h.pointsOf fs) ax.other, q1.1 ≤ r.1 → r.1 ≤ q2.1 → val g (mk ax r.2 r.1) = 0 := by
      intro r hr a1 a2
      obtain ⟨aq1, -⟩ := row_point hh hF hq1
      obtain ⟨aq2, -⟩ := row_point hh hF hq2
      obtain ⟨ar, g', hg', vr⟩ := row_point hh hF hr
      have hchord : ∃ w, Area pts w ∧ coord w ax.other = r.1 ∧ val g w = 0 := by
        rcases eq_or_lt_of_le (a1.trans a2) with e | hlt
        · exact ⟨_, aq1, by simp; linarith, g1⟩
        · have hd : 0 < q2.1 - q1.1 := by linarith
          set k := (r.1 - q1.1) / (q2.1 - q1.1) with hk
          have hk0 : 0 ≤ k := div_nonneg (by linarith) hd.le
          have hk1 : k ≤ 1 := by rw [hk, div_le_one hd]; linarith
          have hkm : k * (q2.1 - q1.1) = r.1 - q1.1 := by rw [hk]; field_simp
          refine ⟨_, .mix k hk0 hk1 aq1 aq2, ?_, ?_⟩
          · rw [coord_mix]; simp only [coord_mk_other]; linarith
          · have : ∀ p q : ℚ × ℚ, val g ((1 - k) * p.1 + k * q.1, (1 - k) * p.2 + k * q.2) =
                (1 - k) * val g p + k * val g q := by intro p q; unfold val; ring
            rw [this, g1, g2]; ring
      obtain ⟨w, aw, wt, wv⟩ := hchord
      have := uniq hg hg' aw ar wv vr (by simp [wt])
      have e : w = mk ax r.2 r.1 := by
        rw [← mk_coord ax w, wt, this]; simp
      rw [← e]; exact wv
    have v1 := on r1 hr1 k1 (by linarith)
    have v2 := on r2 hr2 (by linarith) k2
    rw [val_eq ax] at v1 v2 hgz
    simp only [coord_mk, coord_mk_other] at v1 v2
    rw [hzt] at hgz
    have hd : r2.1 - r1.1 ≠ 0 := by linarith
    unfold onLine
    have e : g.normal ax * ((coord z ax - r1.2) * (r2.1 - r1.1) - (t - r1.1) * (r2.2 - r1.2)) = 0 := by
      linear_combination (r2.1 - r1.1) * (hgz - v1) - (t - r1.1) * (v2 - v1)
    have e' := (mul_eq_zero.1 e).resolve_left hn0
    field_simp
    linarith


theorem exists_greatest {α : Type} (φ : α → ℚ) : ∀ {l : List α}, l ≠ [] → ∃ x ∈ l, ∀ y ∈ l, φ y ≤ φ x
  | [], h => absurd rfl h
  | [a], _ => ⟨a, by simp, by simp⟩
  | a :: b :: l, _ => by
    obtain ⟨x, hx, hm⟩ := exists_greatest φ (l := b :: l) (by simp)
    rcases le_total (φ a) (φ x) with hle | hle
    · exact ⟨x, List.mem_cons_of_mem _ hx, fun y hy => by
        rcases List.mem_cons.1 hy with rfl | hy
        · exact hle
        · exact hm y hy⟩
    · exact ⟨a, List.mem_cons_self, fun y hy => by
        rcases List.mem_cons.1 hy with rfl | hy
        · exact le_rfl
        · exact (hm y hy).trans hle⟩

/-- At every level of the area there is an outermost point, and it lies on a facet that faces outwards there. -/
theorem tight (hh : IsHull pts h) {ax : Axis} {s : ℚ} (hs : s = 1 ∨ s = -1) {w : ℚ × ℚ} (hw : Area pts w) :
    ∃ z, Area pts z ∧ coord z ax.other = coord w ax.other ∧ ∃ f ∈ h.facets, s * f.normal ax < 0 ∧ val f z = 0 := by
  have hss : s * s = 1 := by rcases hs with rfl | rfl <;> norm_num
  set fs := h.facets.filter fun f => decide (s * f.normal ax < 0) with hfs
  have mem : ∀ f, f ∈ fs ↔ f ∈ h.facets ∧ s * f.normal ax < 0 := by intro f; simp [hfs]
  have hne : fs ≠ [] := by
    intro he
    have hno : ∀ f ∈ h.facets, 0 ≤ s * f.normal ax := by
      intro f hf
      by_contra hc
      have := (mem f).2 ⟨hf, not_le.1 hc⟩
      rw [he] at this; cases this
    obtain ⟨c, hc⟩ := area_coord_bound pts (-s) ax
    have h1 := hc w hw
    have := hc (mk ax (coord w ax - s * (c + s * coord w ax + 1)) (coord w ax.other)) ((hh.area _).2 fun f hf => by
      have h2 := (hh.area w).1 hw f hf
      have h3 := hno f hf
      rw [val_eq ax] at h2 ⊢
      simp only [coord_mk, coord_mk_other]
      have h4 : 0 ≤ (s * f.normal ax) * (c + s * coord w ax + 1) := mul_nonneg h3 (by linarith)
      nlinarith)
    rw [coord_mk] at this
    have e : -s * (coord w ax - s * (c + s * coord w ax + 1)) = c + 1 := by
      linear_combination (c + s * coord w ax + 1) * hss
    linarith
  obtain ⟨f, hf, hm⟩ := exists_greatest
    (fun f : Facet => s * (-(f.c + f.normal ax.other * coord w ax.other) / f.normal ax)) hne
  have hfn := ((mem f).1 hf).2
  have hn0 : f.normal ax ≠ 0 := by rintro e; rw [e] at hfn; simp at hfn
  set v := -(f.c + f.normal ax.other * coord w ax.other) / f.normal ax with hv
  have hfv : f.normal ax * v = -(f.c + f.normal ax.other * coord w ax.other) := by rw [hv]; field_simp
  have hvw : s * v ≤ s * coord w ax := by
    have h2 := (hh.area w).1 hw f ((mem f).1 hf).1
    rw [val_eq ax] at h2
    rcases hs with e | e <;> subst e <;> nlinarith
  refine ⟨mk ax v (coord w ax.other), (hh.area _).2 fun g hg => ?_, by simp, f, ((mem f).1 hf).1, hfn, ?_⟩
  · have h2 := (hh.area w).1 hw g hg
    rw [val_eq ax] at h2 ⊢
    simp only [coord_mk, coord_mk_other]
    by_cases hgn : s * g.normal ax < 0
    · have h3 := hm g ((mem g).2 ⟨hg, hgn⟩)
      have hg0 : g.normal ax ≠ 0 := by rintro e; rw [e] at hgn; simp at hgn
      set u := -(g.c + g.normal ax.other * coord w ax.other) / g.normal ax with hu
      have hgu : g.normal ax * u = -(g.c + g.normal ax.other * coord w ax.other) := by rw [hu]; field_simp
      rcases hs with e | e <;> subst e <;> nlinarith
    · have h3 : 0 ≤ s * g.normal ax := not_lt.1 hgn
      have h4 : 0 ≤ (s * g.normal ax) * (s * coord w ax - s * v) := mul_nonneg h3 (by linarith)
      have e : (s * g.normal ax) * (s * coord w ax - s * v) = g.normal ax * (coord w ax - v) := by
        linear_combination g.normal ax * (coord w ax - v) * hss
      rw [e] at h4
      linarith
  · rw [val_eq ax]
    simp only [coord_mk, coord_mk_other]
    linarith

/-! ### The two halves of the hull -/

theorem foldl_max (l : List ℚ) (a : ℚ) : (l.foldl max a = a ∨ l.foldl max a ∈ l) ∧ a ≤ l.foldl max a ∧
    ∀ x ∈ l, x ≤ l.foldl max a := by
  induction l generalizing a with
  | nil => simp
  | cons b l ih =>
    obtain ⟨h1, h2, h3⟩ := ih (max a b)
    simp only [List.foldl_cons]
    refine ⟨?_, (le_max_left a b).trans h2, fun x hx => ?_⟩
    · rcases h1 with h1 | h1
      · rw [h1]
        rcases max_choice a b with e | e <;> rw [e] <;> simp
      · exact .inr (List.mem_cons_of_mem _ h1)
    · rcases List.mem_cons.1 hx with rfl | hx
      · exact (le_max_right a x).trans h2
      · exact h3 x hx

theorem foldl_min (l : List ℚ) (a : ℚ) : (l.foldl min a = a ∨ l.foldl min a ∈ l) ∧ l.foldl min a ≤ a ∧
    ∀ x ∈ l, l.foldl min a ≤ x := by
  induction l generalizing a with
  | nil => simp
  | cons b l ih =>
    obtain ⟨h1, h2, h3⟩ := ih (min a b)
    simp only [List.foldl_cons]
    refine ⟨?_, h2.trans (min_le_left a b), fun x hx => ?_⟩
    · rcases h1 with h1 | h1
      · rw [h1]
        rcases min_choice a b with e | e <;> rw [e] <;> simp
      · exact .inr (List.mem_cons_of_mem _ h1)
    · rcases List.mem_cons.1 hx with rfl | hx
      · exact h2.trans (min_le_right a x)
      · exact h3 x hx

theorem maxBound_spec (hne : h.points ≠ []) (ax : Axis) :
    (∃ p ∈ h.points, coord p ax = h.maxBound ax) ∧ ∀ p ∈ h.points, coord p ax ≤ h.maxBound ax := by
  unfold Hull.maxBound
  obtain ⟨h1, -, h3⟩ := foldl_max (h.points.map (coord · ax)) ((h.points.map (coord · ax)).headD 0)
  refine ⟨?_, fun p hp => h3 _ (List.mem_map_of_mem hp)⟩
  rcases h1 with h1 | h1
  · rw [h1]
    cases hp : h.points with
    | nil => exact absurd hp hne
    | cons p l => exact ⟨p, by simp, rfl⟩
  · obtain ⟨p, hp, e⟩ := List.mem_map.1 h1
    exact ⟨p, hp, e⟩

theorem minBound_spec (hne : h.points ≠ []) (ax : Axis) :
    (∃ p ∈ h.points, coord p ax = h.minBound ax) ∧ ∀ p ∈ h.points, h.minBound ax ≤ coord p ax := by
  unfold Hull.minBound
  obtain ⟨h1, -, h3⟩ := foldl_min (h.points.map (coord · ax)) ((h.points.map (coord · ax)).headD 0)
  refine ⟨?_, fun p hp => h3 _ (List.mem_map_of_mem hp)⟩
  rcases h1 with h1 | h1
  · rw [h1]
    cases hp : h.points with
    | nil => exact absurd hp hne
    | cons p l => exact ⟨p, by simp, rfl⟩
  · obtain ⟨p, hp, e⟩ := List.mem_map.1 h1
    exact ⟨p, hp, e⟩

theorem centre_middle (hne : h.points ≠ []) : Middle h.points (h.centre .zero, h.centre .one) := by
  obtain ⟨⟨r, hr, er⟩, br⟩ := maxBound_spec hne .zero
  obtain ⟨⟨l, hl, el⟩, bl⟩ := minBound_spec hne .zero
  obtain ⟨⟨u, hu, eu⟩, bu⟩ := maxBound_spec hne .one
  obtain ⟨⟨d, hd, ed⟩, bd⟩ := minBound_spec hne .one
  refine ⟨l, hl, r, hr, d, hd, u, hu, fun p hp => ?_, ?_⟩
  · have h1 := br p hp; have h2 := bl p hp; have h3 := bu p hp; have h4 := bd p hp
    rw [← er] at h1; rw [← el] at h2; rw [← eu] at h3; rw [← ed] at h4
    exact ⟨h2, h1, h4, h3⟩
  · simp only [coord] at er el eu ed
    simp only [Hull.centre, er, el, eu, ed]

/-- With the middle inside the area every facet that is not parallel to the axis is on one side of it. -/
theorem centre_strict (hh : IsHull pts h) (hr : Round pts) {f : Facet} (hf : f ∈ h.facets) {ax : Axis}
    (hn : f.normal ax ≠ 0) :
    f.normal ax * h.centre ax + f.normal ax.other * h.centre ax.other + f.c < 0 := by
  obtain ⟨p, q, ⟨e, -⟩, -⟩ := hh.ends f hf
  have hne : h.points ≠ [] := List.ne_nil_of_mem (List.mem_of_getElem? e)
  have hm := centre_middle hne
  rw [hh.points] at hm
  obtain ⟨w, hw, hlt⟩ := hr _ hm f.a f.b (by cases ax <;> simp only [Facet.normal] at hn <;> tauto)
  have h1 := (hh.area w).1 (.sample hw) f hf
  unfold val at h1
  cases ax <;> simp only [Facet.normal, Axis.other] <;> simp only at hlt <;> linarith

theorem mem_lower (hh : IsHull pts h) (hr : Round pts) (ax : Axis) (f : Facet) :
    f ∈ h.lower ax ↔ f ∈ h.facets ∧ 1 * f.normal ax < 0 := by
  unfold Hull.lower
  simp only [List.mem_filter, Bool.and_eq_true, decide_eq_true_eq, one_mul]
  refine and_congr_right fun hf => ?_
  by_cases hn : f.normal ax = 0
  · simp [hn]
  · have hc := centre_strict hh hr hf hn
    have ht : f.normal ax * h.test ax f = -f.c - f.normal ax.other * h.centre ax.other := by
      unfold Hull.test; field_simp
    constructor
    · rintro ⟨-, h2⟩
      rcases lt_or_gt_of_ne hn with h3 | h3
      · exact h3
      · nlinarith
    · intro h3
      refine ⟨hn, ?_⟩
      by_contra h4
      push Not at h4
      nlinarith

theorem mem_upper (hh : IsHull pts h) (hr : Round pts) (ax : Axis) (f : Facet) :
    f ∈ h.upper ax ↔ f ∈ h.facets ∧ -1 * f.normal ax < 0 := by
  unfold Hull.upper
  simp only [List.mem_filter, Bool.and_eq_true, decide_eq_true_eq]
  refine and_congr_right fun hf => ?_
  by_cases hn : f.normal ax = 0
  · simp [hn]
  · have hc := centre_strict hh hr hf hn
    have ht : f.normal ax * h.test ax f = -f.c - f.normal ax.other * h.centre ax.other := by
      unfold Hull.test; field_simp
    constructor
    · rintro ⟨-, h2⟩
      rcases lt_or_gt_of_ne hn with h3 | h3
      · nlinarith
      · linarith
    · intro h3
      refine ⟨hn, ?_⟩
      by_contra h4
      push Not at h4
      nlinarith

theorem family_of {fs : List Facet} {ax : Axis} {s : ℚ} (hm : ∀ f, f ∈ fs ↔ f ∈ h.facets ∧ s * f.normal ax < 0) :
    Family h fs ax s := by
  refine ⟨fun f hf => (hm f).1 hf, fun f hf g hg m hpos ha hb => (hm g).2 ⟨hg, ?_⟩⟩
  rw [normal_scale ha hb ax]
  have := ((hm f).1 hf).2
  nlinarith

/-- `u` is the level of the area that is closest to `t`. -/
def Near (pts : List (ℚ × ℚ)) (ax : Axis) (t u : ℚ) : Prop :=
  u = t ∨ (t < u ∧ ∀ w, Area pts w → u ≤ coord w ax) ∨ (u < t ∧ ∀ w, Area pts w → coord w ax ≤ u)

/-- The curve follows the edge of the area. -/
def Follows (pts : List (ℚ × ℚ)) (ax : Axis) (s : ℚ) (c : Curve) : Prop :=
  ∀ t, ∃ v u, c.at t = some v ∧ Near pts ax.other t u ∧ Area pts (mk ax v u) ∧
    ∀ w, Area pts w → coord w ax.other = u → s * v ≤ s * coord w ax

theorem area_ext {w : ℚ × ℚ} (hw : Area pts w) (s : ℚ) (ax : Axis) :
    ∃ p ∈ pts, ∀ z, Area pts z → s * coord z ax ≤ s * coord p ax := by
  have hne : pts ≠ [] := by
    rintro rfl
    induction hw with
    | sample h => cases h
    | mix _ _ _ _ _ ih _ => exact ih
  obtain ⟨p, hp, hm⟩ := exists_greatest (fun p => s * coord p ax) hne
  refine ⟨p, hp, fun z hz => ?_⟩
  cases ax with
  | zero =>
    have := area_bound (a := s) (b := 0) (c := s * p.1) (fun q hq => by have := hm q hq; simp only [coord] at this; linarith) hz
    simp only [coord]; linarith
  | one =>
    have := area_bound (a := 0) (b := s) (c := s * p.2) (fun q hq => by have := hm q hq; simp only [coord] at this; linarith) hz
    simp only [coord]; linarith

theorem make_ok {ps : List (ℚ × ℚ)} {x : Axis} {c : Curve} (he : Curve.make ps x = .ok c) :
    asRows ps x ≠ [] ∧ ∃ a ∈ asRows ps x, ∃ b ∈ asRows ps x, (∀ r ∈ asRows ps x, a.1 ≤ r.1 ∧ r.1 ≤ b.1) ∧
      c = ⟨asRows ps x, some a.2, some b.2⟩ := by
  unfold Curve.make at he
  have hne : asRows ps x ≠ [] := by
    intro e
    rw [e] at he
    simp [firstLast, sortRows] at he
  obtain ⟨a, b, e, ha, hb, hall⟩ := C80.firstLast_spec hne
  rw [e] at he
  exact ⟨hne, a, ha, b, hb, hall, (Except.ok.inj he).symm⟩

theorem follows (hh : IsHull pts h) {fs : List Facet} {ax : Axis} {s : ℚ} (hs : s = 1 ∨ s = -1)
    (hm : ∀ f, f ∈ fs ↔ f ∈ h.facets ∧ s * f.normal ax < 0) {c : Curve}
    (he : Curve.make (h.pointsOf fs) ax.other = .ok c) : Follows pts ax s c := by
  have hF := family_of hm
  obtain ⟨hne, a, ha, b, hb, hall, rfl⟩ := make_ok he
  obtain ⟨aa, fa, hfa, va⟩ := row_point hh hF ha
  obtain ⟨ab, fb, hfb, vb⟩ := row_point hh hF hb
  -- the rows reach every level of the area
  have reach : ∀ w, Area pts w → a.1 ≤ coord w ax.other ∧ coord w ax.other ≤ b.1 := by
    intro w hw
    obtain ⟨z, hz, hzw, f, hf, hn, hv⟩ := tight hh (ax := ax) hs hw
    obtain ⟨g, -, -, r1, hr1, r2, hr2, -, -, l1, l2⟩ := rows_around hh hF hz ((hm f).2 ⟨hf, hn⟩) hv
    rw [hzw] at l1 l2
    exact ⟨(hall r1 hr1).1.trans l1, l2.trans (hall r2 hr2).2⟩
  intro t
  unfold Curve.at
  rcases C80.lookupFl_spec hne (some a.2) (some b.2) t with ⟨hb', e⟩ | ⟨hb', e⟩ | ⟨v, hv, e⟩
  · refine ⟨a.2, a.1, e, .inr (.inl ⟨hb' a ha, fun w hw => (reach w hw).1⟩), aa, fun w hw hwt => ?_⟩
    have := extreme hh hs (hF.sub fa hfa).1 (hF.sub fa hfa).2 va hw (by simpa using hwt)
    simpa using this
  · refine ⟨b.2, b.1, e, .inr (.inr ⟨hb' b hb, fun w hw => (reach w hw).2⟩), ab, fun w hw hwt => ?_⟩
    have := extreme hh hs (hF.sub fb hfb).1 (hF.sub fb hfb).2 vb hw (by simpa using hwt)
    simpa using this
  · have hlev : ∃ w, Area pts w ∧ coord w ax.other = t := by
      rcases hv with hmem | ⟨r1, hr1, r2, hr2, h1, h2, -, -⟩
      · exact ⟨_, (row_point hh hF hmem).1, by simp⟩
      · obtain ⟨k, -, -, z, hz, hzt, -⟩ := area_between ax.other (row_point hh hF hr1).1 (row_point hh hF hr2).1 (t := t)
          (by simpa using h1.le) (by simpa using h2.le)
        exact ⟨z, hz, hzt⟩
    obtain ⟨w, hw, hwt⟩ := hlev
    obtain ⟨z, hz, hzw, f, hf, hn, hfz⟩ := tight hh (ax := ax) hs hw
    have hvz := between_point hh hs hF hv hz (hzw.trans hwt) ((hm f).2 ⟨hf, hn⟩) hfz
    have hzm : mk ax v t = z := by rw [hvz, ← hwt, ← hzw, mk_coord]
    refine ⟨v, t, e, .inl rfl, by rw [hzm]; exact hz, fun w' hw' hwt' => ?_⟩
    rw [hvz]
    exact extreme hh hs hf hn hfz hw' (by rw [hwt', hzw, hwt])

end

/-! ## Moving a point into the area -/

/-- Raising one coordinate to the edge of the area and then the other ends in the area exactly when the area has a point
that is at least as large in both. -/
theorem stairs {S : ℚ → ℚ → Prop}
    (hc : ∀ x y x' y' k : ℚ, S x y → S x' y' → 0 ≤ k → k ≤ 1 → S ((1 - k) * x + k * x') ((1 - k) * y + k * y'))
    {a b va vb : ℚ} {u t : ℚ}
    (nu : u = b ∨ (b < u ∧ ∀ x y, S x y → u ≤ y) ∨ (u < b ∧ ∀ x y, S x y → y ≤ u))
    (su : S va u) (mu : ∀ x, S x u → va ≤ x)
    (nt : t = max a va ∨ (max a va < t ∧ ∀ x y, S x y → t ≤ x) ∨ (t < max a va ∧ ∀ x y, S x y → x ≤ t))
    (st : S t vb) (mt : ∀ y, S t y → vb ≤ y) :
    ((∃ x y, S x y ∧ a ≤ x ∧ b ≤ y) → S (max a va) (max b vb)) ∧
    (S a b → max a va = a ∧ max b vb = b) ∧
    (∀ x, S x b → a ≤ x → max a va ≤ x) ∧
    (∀ y, S (max a va) y → b ≤ y → max b vb ≤ y) := by
  -- along a line between two points
  have level1 : ∀ {x y x' y' : ℚ} (v : ℚ), S x y → S x' y' → x ≤ v → v ≤ x' → ∃ y'', S v y'' ∧ min y y' ≤ y'' := by
    intro x y x' y' v h1 h2 h3 h4
    rcases eq_or_lt_of_le (h3.trans h4) with e | hlt
    · have : v = x := by linarith
      exact ⟨y, this ▸ h1, min_le_left _ _⟩
    · have hd : 0 < x' - x := by linarith
      set k := (v - x) / (x' - x) with hk
      have hk0 : 0 ≤ k := div_nonneg (by linarith) hd.le
      have hk1 : k ≤ 1 := by rw [hk, div_le_one hd]; linarith
      have hkm : k * (x' - x) = v - x := by rw [hk]; field_simp
      have := hc x y x' y' k h1 h2 hk0 hk1
      rw [show (1 - k) * x + k * x' = v by linarith] at this
      refine ⟨_, this, ?_⟩
      have m1 := min_le_left y y'
      have m2 := min_le_right y y'
      nlinarith
  have level2 : ∀ {v y y' : ℚ} (w : ℚ), S v y → S v y' → y ≤ w → w ≤ y' → S v w := by
    intro v y y' w h1 h2 h3 h4
    rcases eq_or_lt_of_le (h3.trans h4) with e | hlt
    · have : w = y := by linarith
      exact this ▸ h1
    · have hd : 0 < y' - y := by linarith
      set k := (w - y) / (y' - y) with hk
      have hk0 : 0 ≤ k := div_nonneg (by linarith) hd.le
      have hk1 : k ≤ 1 := by rw [hk, div_le_one hd]; linarith
      have hkm : k * (y' - y) = w - y := by rw [hk]; field_simp
      have := hc v y v y' k h1 h2 hk0 hk1
      rwa [show (1 - k) * y + k * y' = w by linarith, show (1 - k) * v + k * v = v by ring] at this
  -- the second level is met wherever the area has points
  have meet : ∀ {x y : ℚ}, S x y → a ≤ x → t = max a va := by
    intro x y hxy hax
    rcases nt with e | ⟨h1, h2⟩ | ⟨h1, h2⟩
    · exact e
    · have := h2 _ _ su
      have := le_max_right a va
      linarith
    · have h3 := h2 _ _ su
      have h4 := h2 _ _ hxy
      rcases max_choice a va with e | e <;> rw [e] at h1 <;> linarith
  refine ⟨?_, ?_, ?_, ?_⟩
  · rintro ⟨x, y, hxy, hax, hby⟩
    have ht := meet hxy hax
    rw [ht] at st mt
    have hub : b ≤ u := by
      rcases nu with e | ⟨h1, -⟩ | ⟨h1, h2⟩
      · exact e.ge
      · exact h1.le
      · have := h2 _ _ hxy; linarith
    rcases le_total vb b with hvb | hvb
    · rw [max_eq_left hvb]
      have hu : u = b := by
        rcases nu with e | ⟨h1, h2⟩ | ⟨h1, h2⟩
        · exact e
        · have := h2 _ _ st; linarith
        · linarith
      subst hu
      rcases le_total a va with hav | hav
      · rw [max_eq_right hav]; exact su
      · rw [max_eq_left hav] at st mt ⊢
        obtain ⟨y'', h1, h2⟩ := level1 a su hxy hav hax
        rw [min_eq_left hby] at h2
        exact level2 u st h1 hvb h2
    · rw [max_eq_right hvb]; exact st
  · intro hab
    have hu : u = b := by
      rcases nu with e | ⟨h1, h2⟩ | ⟨h1, h2⟩
      · exact e
      · have := h2 _ _ hab; linarith
      · have := h2 _ _ hab; linarith
    subst hu
    have h1 := mu _ hab
    have ht := meet hab le_rfl
    rw [max_eq_left h1] at ht ⊢
    subst ht
    exact ⟨rfl, max_eq_left (mt _ hab)⟩
  · intro x hx hax
    have hu : u = b := by
      rcases nu with e | ⟨h1, h2⟩ | ⟨h1, h2⟩
      · exact e
      · have := h2 _ _ hx; linarith
      · have := h2 _ _ hx; linarith
    exact max_le hax (mu x (hu ▸ hx))
  · intro y hy hby
    have ht := meet hy (le_max_left _ _)
    exact max_le hby (mt y (ht ▸ hy))

/-- The axis that is adjusted first, and the direction in which the other is adjusted. -/
def axisOf : Kind → Axis
  | .psPd => .one
  | _ => .zero

@[inherit_doc axisOf] def signOf : Kind → ℚ
  | .ratePd => 1
  | _ => -1

theorem signOf_or (k : Kind) : signOf k = 1 ∨ signOf k = -1 := by cases k <;> simp [signOf]

theorem plane_follows {pts : List (ℚ × ℚ)} {h : Hull} (hh : IsHull pts h) (hr : Round pts) {k : Kind} {pl : Plane}
    (he : Plane.make k h = .ok pl) :
    Follows pts (axisOf k) 1 pl.first ∧ Follows pts (axisOf k).other (signOf k) pl.second := by
  cases k with
  | ratePd =>
    obtain ⟨c1, e1, he⟩ := C80.bind_ok he
    obtain ⟨c2, e2, he⟩ := C80.bind_ok he
    obtain ⟨c3, e3, he⟩ := C80.bind_ok he
    have := (Except.ok.inj he).symm
    subst this
    exact ⟨follows hh (ax := .zero) (.inl rfl) (mem_lower hh hr _) e1, follows hh (ax := .one) (.inl rfl) (mem_lower hh hr _) e2⟩
  | ratePs =>
    obtain ⟨c1, e1, he⟩ := C80.bind_ok he
    obtain ⟨c2, e2, he⟩ := C80.bind_ok he
    obtain ⟨c3, e3, he⟩ := C80.bind_ok he
    have := (Except.ok.inj he).symm
    subst this
    exact ⟨follows hh (ax := .zero) (.inl rfl) (mem_lower hh hr _) e1, follows hh (ax := .one) (.inr rfl) (mem_upper hh hr _) e2⟩
  | psPd =>
    obtain ⟨c1, e1, he⟩ := C80.bind_ok he
    obtain ⟨c2, e2, he⟩ := C80.bind_ok he
    have := (Except.ok.inj he).symm
    subst this
    exact ⟨follows hh (ax := .one) (.inl rfl) (mem_lower hh hr _) e1, follows hh (ax := .zero) (.inr rfl) (mem_upper hh hr _) e2⟩

theorem serves_iff (k : Kind) (x y : ℚ) (z : ℚ × ℚ) : Serves k x y z ↔
    coord (x, y) (axisOf k) ≤ coord z (axisOf k) ∧
    signOf k * coord (x, y) (axisOf k).other ≤ signOf k * coord z (axisOf k).other := by
  cases k <;> simp only [Serves, axisOf, signOf, coord, Axis.other]
  · simp
  · constructor <;> rintro ⟨h1, h2⟩ <;> exact ⟨h1, by linarith⟩
  · constructor <;> rintro ⟨h1, h2⟩
    · exact ⟨h2, by linarith⟩
    · exact ⟨by linarith, h1⟩

theorem neg_max_neg (a b : ℚ) : -max (-a) (-b) = min a b := by
  rcases le_total a b with h | h
  · rw [min_eq_left h, max_eq_left (by linarith), neg_neg]
  · rw [min_eq_right h, max_eq_right (by linarith), neg_neg]

/-- What the projection does. -/
theorem project_spec {pts : List (ℚ × ℚ)} {k : Kind} {pl : Plane}
    (h1 : Follows pts (axisOf k) 1 pl.first) (h2 : Follows pts (axisOf k).other (signOf k) pl.second) (x y : ℚ) :
    Serves k x y (pl.project k x y) ∧
    ((∃ z, Area pts z ∧ Serves k x y z) → Area pts (pl.project k x y)) ∧
    (Area pts (x, y) → pl.project k x y = (x, y)) ∧
    (∀ z, Area pts z → Serves k x y z → coord z (axisOf k).other = coord (x, y) (axisOf k).other →
      coord (pl.project k x y) (axisOf k) ≤ coord z (axisOf k)) ∧
    (∀ z, Area pts z → Serves k x y z → coord z (axisOf k) = coord (pl.project k x y) (axisOf k) →
      signOf k * coord (pl.project k x y) (axisOf k).other ≤ signOf k * coord z (axisOf k).other) := by
  set ax := axisOf k with hax
  set s := signOf k with hs
  have hss : s * s = 1 := by rcases signOf_or k with e | e <;> rw [hs, e] <;> norm_num
  have hsa : ∀ q : ℚ, s * (s * q) = q := by intro q; linear_combination q * hss
  obtain ⟨va, u, e1, n1, a1, m1⟩ := h1 (coord (x, y) ax.other)
  obtain ⟨vb, t, e2, n2, a2, m2⟩ := h2 (max (coord (x, y) ax) va)
  rw [other_other] at n2 m2
  rw [mk_other] at a2
  -- the projected point
  have hp : pl.project k x y = mk ax (max (coord (x, y) ax) va) (s * max (s * coord (x, y) ax.other) (s * vb)) := by
    cases k with
    | ratePd =>
      simp only [hax, hs, axisOf, signOf, coord, Axis.other] at e1 e2 ⊢
      simp only [Plane.project, e1, fmax, e2, mk, one_mul]
    | ratePs =>
      simp only [hax, hs, axisOf, signOf, coord, Axis.other] at e1 e2 ⊢
      simp only [Plane.project, e1, fmax, e2, mk, fmin, Prod.mk.injEq, true_and]
      rw [neg_one_mul, neg_one_mul, neg_one_mul, neg_max_neg]
    | psPd =>
      simp only [hax, hs, axisOf, signOf, coord, Axis.other] at e1 e2 ⊢
      simp only [Plane.project, e1, fmax, e2, mk, fmin, Prod.mk.injEq, and_true]
      rw [neg_one_mul, neg_one_mul, neg_one_mul, neg_max_neg]
  obtain ⟨g1, g2, g3, g4⟩ := stairs (S := fun p q => Area pts (mk ax p (s * q)))
    (a := coord (x, y) ax) (b := s * coord (x, y) ax.other) (va := va) (vb := s * vb) (u := s * u) (t := t)
    (by
      intro p q p' q' k h1 h2 k0 k1
      have := Area.mix k k0 k1 h1 h2
      have e : mk ax ((1 - k) * p + k * p') (s * ((1 - k) * q + k * q')) =
        ((1 - k) * (mk ax p (s * q)).1 + k * (mk ax p' (s * q')).1,
          (1 - k) * (mk ax p (s * q)).2 + k * (mk ax p' (s * q')).2) := by
        cases ax <;> simp only [mk] <;> congr 1 <;> ring
      rw [e]; exact this)
    (by
      rcases n1 with e | ⟨l1, l2⟩ | ⟨l1, l2⟩
      · exact .inl (by rw [e])
      · rcases signOf_or k with e | e <;> rw [← hs] at e <;> rw [e]
        · refine .inr (.inl ⟨by linarith, fun p q hq => ?_⟩)
          have := l2 _ hq; simp only [coord_mk_other] at this; linarith
        · refine .inr (.inr ⟨by linarith, fun p q hq => ?_⟩)
          have := l2 _ hq; simp only [coord_mk_other] at this; linarith
      · rcases signOf_or k with e | e <;> rw [← hs] at e <;> rw [e]
        · refine .inr (.inr ⟨by linarith, fun p q hq => ?_⟩)
          have := l2 _ hq; simp only [coord_mk_other] at this; linarith
        · refine .inr (.inl ⟨by linarith, fun p q hq => ?_⟩)
          have := l2 _ hq; simp only [coord_mk_other] at this; linarith)
    (by simp only [hsa]; exact a1)
    (by
      intro p hq
      simp only [hsa] at hq
      have := m1 _ hq (by simp)
      simpa using this)
    (by
      rcases n2 with e | ⟨l1, l2⟩ | ⟨l1, l2⟩
      · exact .inl e
      · exact .inr (.inl ⟨l1, fun p q hq => by simpa using l2 _ hq⟩)
      · exact .inr (.inr ⟨l1, fun p q hq => by simpa using l2 _ hq⟩))
    (by simp only [hsa]; exact a2)
    (by
      intro q hq
      have := m2 _ hq (by simp)
      simp only [coord_mk_other, hsa] at this
      exact this)
  have hmk : ∀ z : ℚ × ℚ, mk ax (coord z ax) (s * (s * coord z ax.other)) = z := by
    intro z; rw [hsa, mk_coord]
  have hsv : ∀ z, Serves k x y z ↔ coord (x, y) ax ≤ coord z ax ∧ s * coord (x, y) ax.other ≤ s * coord z ax.other :=
    serves_iff k x y
  refine ⟨?_, ?_, ?_, ?_, ?_⟩
  · rw [hsv, hp, coord_mk, coord_mk_other, hsa]
    exact ⟨le_max_left _ _, le_max_left _ _⟩
  · rintro ⟨z, hz, hzs⟩
    rw [hsv] at hzs
    rw [hp]
    exact g1 ⟨coord z ax, s * coord z ax.other, by simp only [hmk]; exact hz, hzs.1, hzs.2⟩
  · intro hz
    obtain ⟨e1, e2⟩ := g2 (by simp only [hmk]; exact hz)
    rw [hp, e1, e2, hmk]
  · intro z hz hzs he
    rw [hp, coord_mk]
    exact g3 (coord z ax) (by rw [← he]; simp only [hmk]; exact hz) ((hsv z).1 hzs).1
  · intro z hz hzs he
    rw [hp, coord_mk] at he
    rw [hp, coord_mk_other, hsa]
    exact g4 (s * coord z ax.other) (by rw [← he]; simp only [hmk]; exact hz) ((hsv z).1 hzs).2

/-! ## The maximum rate -/

section
variable {pts : List (ℚ × ℚ)} {h : Hull}

theorem mem_mono (hh : IsHull pts h) (hr : Round pts) {k : Kind} (hk : k ≠ .psPd) (f : Facet) :
    f ∈ h.upperMonotonic k ↔ (f ∈ h.facets ∧ -1 * f.normal .zero < 0) ∧ 0 ≤ signOf k * f.normal .one := by
  unfold Hull.upperMonotonic
  rw [List.mem_filter, mem_upper hh hr]
  refine and_congr_right fun hf => ?_
  have ha : 0 < f.a := by have := hf.2; simp only [Facet.normal] at this; linarith
  cases k with
  | ratePd => simp only [decide_eq_true_eq, signOf, Facet.normal, one_mul, div_nonneg_iff]; constructor
              · rintro (h1 | h1) <;> linarith
              · intro h1; exact .inl ⟨h1, ha.le⟩
  | ratePs => simp only [decide_eq_true_eq, signOf, Facet.normal, div_nonpos_iff]; constructor
              · rintro (h1 | h1) <;> linarith
              · intro h1; exact .inr ⟨by linarith, ha.le⟩
  | psPd => exact absurd rfl hk

theorem mono_bound (hh : IsHull pts h) {s : ℚ} (hs : s = 1 ∨ s = -1) {f : Facet} (hf : f ∈ h.facets)
    (hn : -1 * f.normal .zero < 0) (hb : 0 ≤ s * f.normal .one) {z w : ℚ × ℚ} (hz : val f z = 0) (hw : Area pts w)
    (hl : s * z.2 ≤ s * w.2) : w.1 ≤ z.1 := by
  have h1 := (hh.area w).1 hw f hf
  unfold val at hz h1
  simp only [Facet.normal] at hn hb
  have h2 : 0 ≤ (s * f.b) * (s * w.2 - s * z.2) := mul_nonneg hb (by linarith)
  have e : (s * f.b) * (s * w.2 - s * z.2) = f.b * (w.2 - z.2) := by
    rcases hs with e | e <;> rw [e] <;> ring
  rw [e] at h2
  nlinarith

theorem mono_strict (hh : IsHull pts h) {s : ℚ} (hs : s = 1 ∨ s = -1) {f : Facet} (hf : f ∈ h.facets)
    (hn : -1 * f.normal .zero < 0) (hb : s * f.normal .one < 0) {z w : ℚ × ℚ} (hz : val f z = 0) (hw : Area pts w)
    (hl : s * w.2 < s * z.2) : w.1 < z.1 := by
  have h1 := (hh.area w).1 hw f hf
  unfold val at hz h1
  simp only [Facet.normal] at hn hb
  have h2 : (s * f.b) * (s * z.2 - s * w.2) < 0 := mul_neg_of_neg_of_pos hb (by linarith)
  have e : (s * f.b) * (s * z.2 - s * w.2) = f.b * (z.2 - w.2) := by
    rcases hs with e | e <;> rw [e] <;> ring
  rw [e] at h2
  nlinarith

theorem max_rate_spec (hh : IsHull pts h) (hr : Round pts) {k : Kind} (hk : k ≠ .psPd) {c : Curve}
    (he : Curve.makeMax k (h.pointsOf (h.upperMonotonic k)) = .ok c) (t : ℚ) :
    ((∃ z, Area pts z ∧ signOf k * t ≤ signOf k * z.2) ∧ ∃ M, c.at t = some M ∧
      (∃ z, Area pts z ∧ signOf k * t ≤ signOf k * z.2 ∧ z.1 = M) ∧
      ∀ z, Area pts z → signOf k * t ≤ signOf k * z.2 → z.1 ≤ M) ∨
    ((¬ ∃ z, Area pts z ∧ signOf k * t ≤ signOf k * z.2) ∧ c.at t = some 0) := by
  have hm := mem_mono hh hr hk
  have hs := signOf_or k
  set s := signOf k with hsk
  set fs := h.upperMonotonic k with hfs
  have hF : Family h fs .zero (-1) := by
    refine ⟨fun f hf => ((hm f).1 hf).1, fun f hf g hg m hpos ha hb => (hm g).2 ⟨⟨hg, ?_⟩, ?_⟩⟩
    · rw [normal_scale ha hb .zero]
      have := ((hm f).1 hf).1.2
      nlinarith
    · rw [normal_scale ha hb .one]
      have := mul_nonneg hpos.le ((hm f).1 hf).2
      linarith
  set rows := asRows (h.pointsOf fs) .one with hrows
  have rowp : ∀ r ∈ rows, Area pts (r.2, r.1) ∧ ∃ f ∈ fs, val f (r.2, r.1) = 0 := fun r hr' => row_point hh hF hr'
  have hne : rows ≠ [] := by
    intro e
    unfold Curve.makeMax at he
    rw [← hrows, e] at he
    simp [firstLast, sortRows] at he
  -- a row bounds all rates at its pressure and beyond
  have rowb : ∀ r ∈ rows, ∀ w, Area pts w → s * r.1 ≤ s * w.2 → w.1 ≤ r.2 := by
    intro r hr' w hw hl
    obtain ⟨-, f, hf, hv⟩ := rowp r hr'
    obtain ⟨⟨h1, h2⟩, h3⟩ := (hm f).1 hf
    exact mono_bound hh hs h1 h2 h3 hv hw hl
  -- beyond a row the outermost facets are monotonic
  have beyond : ∀ r ∈ rows, ∀ w, Area pts w → s * r.1 < s * w.2 → ∃ z, Area pts z ∧ z.2 = w.2 ∧ ∃ f ∈ fs, val f z = 0 := by
    intro r hr' w hw hl
    obtain ⟨z, hz, hzw, f, hf, hn, hv⟩ := tight hh (ax := .zero) (s := -1) (.inr rfl) hw
    have hzw : z.2 = w.2 := hzw
    refine ⟨z, hz, hzw, f, (hm f).2 ⟨⟨hf, hn⟩, ?_⟩, hv⟩
    by_contra hc
    have h1 := mono_strict hh hs hf hn (not_le.1 hc) hv (rowp r hr').1 (by rw [hzw]; exact hl)
    have h2 := rowb r hr' z hz (by rw [hzw]; exact hl.le)
    simp only at h1
    linarith
  have around : ∀ z, Area pts z → ∀ f ∈ fs, val f z = 0 → ∃ r1 ∈ rows, ∃ r2 ∈ rows, s * r1.1 ≤ s * z.2 ∧ s * z.2 ≤ s * r2.1 := by
    intro z hz f hf hv
    obtain ⟨g, -, -, r1, hr1, r2, hr2, -, -, l1, l2⟩ := rows_around hh hF hz hf hv
    have l1 : r1.1 ≤ z.2 := l1
    have l2 : z.2 ≤ r2.1 := l2
    rcases hs with e | e <;> rw [e]
    · exact ⟨r1, hr1, r2, hr2, by linarith, by linarith⟩
    · exact ⟨r2, hr2, r1, hr1, by linarith, by linarith⟩
  -- the first row has the largest rate
  have first : ∀ e ∈ rows, (∀ r ∈ rows, s * e.1 ≤ s * r.1) → ∀ w, Area pts w → w.1 ≤ e.2 := by
    intro e he' hlow w hw
    obtain ⟨P, hP, hPm⟩ := area_ext hw 1 .zero
    have hPm : ∀ z, Area pts z → z.1 ≤ P.1 := fun z hz => by have := hPm z hz; simp only [coord] at this; linarith
    refine (hPm w hw).trans ?_
    by_contra hc
    push Not at hc
    have hlt : s * P.2 < s * e.1 := by
      by_contra h1
      exact absurd (rowb e he' P (.sample hP) (not_lt.1 h1)) (not_le.2 hc)
    have hmid := Area.mix (1 / 2) (by norm_num) (by norm_num) (Area.sample hP) (rowp e he').1
    obtain ⟨z, hz, hzw, f, hf, hn, hv⟩ := tight hh (ax := .zero) (s := -1) (.inr rfl) hmid
    have hzw : z.2 = (1 - 1 / 2) * P.2 + 1 / 2 * e.1 := hzw
    have hze : s * z.2 = (s * P.2 + s * e.1) / 2 := by rw [hzw]; ring
    by_cases hb : 0 ≤ s * f.normal .one
    · obtain ⟨r1, hr1, -, -, l1, -⟩ := around z hz f ((hm f).2 ⟨⟨hf, hn⟩, hb⟩) hv
      have := hlow r1 hr1
      linarith
    · have := mono_strict hh hs hf hn (not_le.1 hb) hv (.sample hP) (by linarith)
      have := hPm z hz
      linarith
  -- the rows reach the last pressure
  have last : ∀ e ∈ rows, (∀ r ∈ rows, s * r.1 ≤ s * e.1) → ∀ w, Area pts w → s * w.2 ≤ s * e.1 := by
    intro e he' hhigh w hw
    by_contra hc
    push Not at hc
    obtain ⟨z, hz, hzw, f, hf, hv⟩ := beyond e he' w hw hc
    obtain ⟨-, -, r2, hr2, -, l2⟩ := around z hz f hf hv
    have := hhigh r2 hr2
    rw [hzw] at l2
    linarith
  have mid : ∀ v, Between rows t v → ∀ {P : Prop}, ((∃ z, Area pts z ∧ s * t ≤ s * z.2 ∧ z.1 = v) →
      (∀ z, Area pts z → s * t ≤ s * z.2 → z.1 ≤ v) → P) → P := by
    intro v hv P hP
    have hv' := hv
    rcases hv with hmem | ⟨r1, hr1, r2, hr2, h1, h2, -, -⟩
    · exact hP ⟨_, (rowp _ hmem).1, le_rfl, rfl⟩ fun z hz hl => rowb _ hmem z hz hl
    · obtain ⟨k', -, -, w, hw, hwt, -⟩ := area_between .one (rowp _ hr1).1 (rowp _ hr2).1 (t := t) h1.le h2.le
      have hwt : w.2 = t := hwt
      obtain ⟨r, hr', hlt⟩ : ∃ r ∈ rows, s * r.1 < s * w.2 := by
        rw [hwt]
        rcases hs with e | e <;> rw [e]
        · exact ⟨r1, hr1, by linarith⟩
        · exact ⟨r2, hr2, by linarith⟩
      obtain ⟨z, hz, hzw, f, hf, hfv⟩ := beyond r hr' w hw hlt
      have hvz : v = z.1 := between_point hh (.inr rfl) hF hv' hz (hzw.trans hwt) hf hfv
      have hzt : z.2 = t := hzw.trans hwt
      obtain ⟨⟨g1, g2⟩, g3⟩ := (hm f).1 hf
      exact hP ⟨z, hz, by rw [hzt], hvz.symm⟩ fun w' hw' hl =>
        hvz ▸ mono_bound hh hs g1 g2 g3 hfv hw' (by rw [hzt]; exact hl)
  obtain ⟨a, b, hab, ha, hb, hall⟩ := C80.firstLast_spec hne
  unfold Curve.makeMax at he
  rw [← hrows, hab] at he
  simp only at he
  cases k with
  | psPd => exact absurd rfl hk
  | ratePd =>
    simp only [reduceCtorEq, if_false] at he
    have := (Except.ok.inj he).symm
    subst this
    have hs1 : s = 1 := rfl
    unfold Curve.at
    rcases C80.lookupFl_spec hne (some a.2) (some 0) t with ⟨hb', e⟩ | ⟨hb', e⟩ | ⟨v, hv, e⟩
    · have hta := hb' a ha
      have hz : s * t ≤ s * a.1 := by rw [hs1]; linarith
      exact .inl ⟨⟨_, (rowp a ha).1, hz⟩, a.2, e, ⟨_, (rowp a ha).1, hz, rfl⟩, fun z hz _ =>
        first a ha (fun r hr' => by have := (hall r hr').1; rw [hs1]; linarith) z hz⟩
    · refine .inr ⟨fun ⟨z, hz, hl⟩ => ?_, e⟩
      have h1 := last b hb (fun r hr' => by have := (hall r hr').2; rw [hs1]; linarith) z hz
      have h2 := hb' b hb
      rw [hs1] at h1 hl
      linarith
    · exact mid v hv fun ⟨z, hz, h1, h2⟩ h3 => .inl ⟨⟨z, hz, h1⟩, v, e, ⟨z, hz, h1, h2⟩, h3⟩
  | ratePs =>
    simp only [if_true] at he
    have := (Except.ok.inj he).symm
    subst this
    have hs1 : s = -1 := rfl
    unfold Curve.at
    rcases C80.lookupFl_spec hne (some 0) (some b.2) t with ⟨hb', e⟩ | ⟨hb', e⟩ | ⟨v, hv, e⟩
    · refine .inr ⟨fun ⟨z, hz, hl⟩ => ?_, e⟩
      have h1 := last a ha (fun r hr' => by have := (hall r hr').1; rw [hs1]; linarith) z hz
      have h2 := hb' a ha
      rw [hs1] at h1 hl
      linarith
    · have hta := hb' b hb
      have hz : s * t ≤ s * b.1 := by rw [hs1]; linarith
      exact .inl ⟨⟨_, (rowp b hb).1, hz⟩, b.2, e, ⟨_, (rowp b hb).1, hz, rfl⟩, fun z hz _ =>
        first b hb (fun r hr' => by have := (hall r hr').2; rw [hs1]; linarith) z hz⟩
    · exact mid v hv fun ⟨z, hz, h1, h2⟩ h3 => .inl ⟨⟨z, hz, h1⟩, v, e, ⟨z, hz, h1, h2⟩, h3⟩

end

/-! ## Theorems -/

/-- The two variables of a kind. -/
def vars : Kind → Var × Var
  | .ratePd => (.rate, .pd)
  | .ratePs => (.rate, .ps)
  | .psPd => (.ps, .pd)

/-- Exactly the two variables of the kind vary. -/
def Pair (d : Data) (k : Kind) : Prop := ∀ v, C80.Varies d v ↔ v = (vars k).1 ∨ v = (vars k).2

/-- The samples: the values of the two variables and the energy used. -/
def samples (d : Data) (k : Kind) : List (ℚ × ℚ × ℚ) :=
  ((d.column (vars k).1).getD []).zip (((d.column (vars k).2).getD []).zip d.energy)

/-- The sampled points. -/
def places (d : Data) (k : Kind) : List (ℚ × ℚ) := (samples d k).map fun r => (r.1, r.2.1)

theorem varying_pair {d : Data} (hs : C80.Sound d) {k : Kind} (hk : Pair d k) :
    d.varying = [(vars k).1, (vars k).2] := by
  have hm : ∀ v, v ∈ d.varying ↔ v = (vars k).1 ∨ v = (vars k).2 := fun v => (C80.mem_varying hs v).trans (hk v)
  unfold Data.varying Data.required at hm ⊢
  rw [List.filter_filter] at hm ⊢
  simp only [List.mem_filter] at hm
  have h1 := hm .rate
  have h2 := hm .ps
  have h3 := hm .pd
  simp only [List.mem_cons, reduceCtorEq, or_false, or_true, true_and, List.not_mem_nil] at h1 h2 h3
  cases k <;> simp only [vars, reduceCtorEq, or_false, or_true, iff_true, iff_false, Bool.not_eq_true] at h1 h2 h3 ⊢ <;>
    simp only [List.filter, h1, h2, h3]

theorem two_inner {g : Geometry} {three} {d : Data} {m : Model} (hm : d.create (g.engine three) = .ok m) {k : Kind}
    (hk : Pair d k) : ∃ h pl, g.hull (samples d k) = .ok h ∧ Plane.make k h = .ok pl ∧
      m.inner = .two k (g.evaluate (samples d k) k pl) := by
  obtain ⟨hs, -, hi⟩ := C80.created hm
  unfold Data.inner at hi
  rw [varying_pair hs hk] at hi
  have key : ∀ rows, (do return Inner.two k (← (g.engine three).two k rows) : Except SErr Inner) = .ok m.inner →
      ∃ h pl, g.hull rows = .ok h ∧ Plane.make k h = .ok pl ∧ m.inner = .two k (g.evaluate rows k pl) := by
    intro rows hi
    obtain ⟨f, h1, h2⟩ := C80.bind_ok hi
    obtain ⟨h, h3, h4⟩ := C80.bind_ok h1
    obtain ⟨pl, h5, h6⟩ := C80.bind_ok h4
    have h6 := Except.ok.inj h6
    exact ⟨h, pl, h3, h5, by rw [h6]; exact (Except.ok.inj h2).symm⟩
  cases k <;> exact key _ hi

theorem eval_two {g : Geometry} {three} {d : Data} {m : Model} (hm : d.create (g.engine three) = .ok m) {k : Kind}
    {p : Point} (hp : C80.Runs d p) {a b : ℚ} (ha : p.get (vars k).1 = some a)
    (hb : p.get (vars k).2 = some b) {f : ℚ → ℚ → Fl} (hi : m.inner = .two k f) :
    m.energyAt p = .ok (f (C80.readAt (vars k).1 a) (C80.readAt (vars k).2 b)) := by
  have hlow : ∀ r, p.rate = some r → p.adjusted.rate = some (r - epsilon) := by
    intro r hr
    have h0 : (0 : ℚ) < epsilon := by unfold epsilon; positivity
    have := hp.on r hr
    simp only [Point.adjusted, hr, Option.map_some, Option.some.injEq]
    unfold lowered
    rw [if_pos (by linarith)]
  rw [C80.energyAt_runs hm hp, hi]
  cases k <;> simp only [vars, Point.get] at ha hb <;>
    simp only [Inner.eval, C80.readAt, vars, reduceCtorEq, if_true, if_false]
  · rw [hlow a ha]; simp only [Point.adjusted, hb]
  · rw [hlow a ha]; simp only [Point.adjusted, hb]
  · simp only [Point.adjusted, ha, hb]

/-- A running compressor has a value exactly when some operating point in the sampled area does what is asked for. -/
theorem C81_valid (g : Geometry) (hg : Promise g) (three) (d : Data) (m : Model)
    (hm : d.create (g.engine three) = .ok m) (k : Kind) (hk : Pair d k) (hr : Round (places d k)) (p : Point)
    (hp : C80.Runs d p) (a b : ℚ) (ha : p.get (vars k).1 = some a) (hb : p.get (vars k).2 = some b) :
    ∃ e, m.energyAt p = .ok e ∧ (e.isSome ↔
      ∃ z, Area (places d k) z ∧ Serves k (C80.readAt (vars k).1 a) (C80.readAt (vars k).2 b) z) := by
  obtain ⟨h, pl, h1, h2, h3⟩ := two_inner hm hk
  have hh := hg.hull _ _ h1
  obtain ⟨f1, f2⟩ := plane_follows hh hr h2
  obtain ⟨p1, p2, -, -, -⟩ := project_spec f1 f2 (C80.readAt (vars k).1 a) (C80.readAt (vars k).2 b)
  refine ⟨_, eval_two hm hp ha hb h3, ?_⟩
  unfold Geometry.evaluate
  rw [(hg.interp _).domain]
  exact ⟨fun ha => ⟨_, ha, p1⟩, fun ⟨z, hz, hs⟩ => p2 ⟨z, hz, hs⟩⟩

/-- The energy belongs to an operating point in the sampled area that does what is asked for. The variable that is
adjusted first is moved no further than needed at what is asked for the other, and the other no further than needed at
the adjusted first. -/
theorem C81_energy (g : Geometry) (hg : Promise g) (three) (d : Data) (m : Model)
    (hm : d.create (g.engine three) = .ok m) (k : Kind) (hk : Pair d k) (hr : Round (places d k)) (p : Point)
    (hp : C80.Runs d p) (a b e : ℚ) (ha : p.get (vars k).1 = some a) (hb : p.get (vars k).2 = some b)
    (he : m.energyAt p = .ok (some e)) :
    ∃ z, Blend (samples d k) (z.1, z.2, e) ∧ Serves k (C80.readAt (vars k).1 a) (C80.readAt (vars k).2 b) z ∧
      (∀ w, Area (places d k) w → Serves k (C80.readAt (vars k).1 a) (C80.readAt (vars k).2 b) w →
        match k with
        | .ratePd => (w.2 = b → z.1 ≤ w.1) ∧ (w.1 = z.1 → z.2 ≤ w.2)
        | .ratePs => (w.2 = b → z.1 ≤ w.1) ∧ (w.1 = z.1 → w.2 ≤ z.2)
        | .psPd => (w.1 = a → z.2 ≤ w.2) ∧ (w.2 = z.2 → w.1 ≤ z.1)) := by
  obtain ⟨h, pl, h1, h2, h3⟩ := two_inner hm hk
  have hh := hg.hull _ _ h1
  obtain ⟨f1, f2⟩ := plane_follows hh hr h2
  obtain ⟨p1, -, -, p4, p5⟩ := project_spec f1 f2 (C80.readAt (vars k).1 a) (C80.readAt (vars k).2 b)
  rw [eval_two hm hp ha hb h3] at he
  have he := Except.ok.inj he
  refine ⟨_, (hg.interp _).blend _ _ he, p1, fun w hw hs => ?_⟩
  have q1 := p4 w hw hs
  have q2 := p5 w hw hs
  cases k with
  | ratePd =>
    refine ⟨q1, fun h => ?_⟩
    have := q2 h
    simp only [signOf, one_mul] at this
    exact this
  | ratePs =>
    refine ⟨q1, fun h => ?_⟩
    have := q2 h
    simp only [signOf, neg_mul, one_mul, neg_le_neg_iff] at this
    exact this
  | psPd =>
    refine ⟨q1, fun h => ?_⟩
    have := q2 h
    simp only [signOf, neg_mul, one_mul, neg_le_neg_iff] at this
    exact this

/-- Inside the sampled area the samples are read at exactly what is asked for. -/
theorem C81_inside (g : Geometry) (hg : Promise g) (three) (d : Data) (m : Model)
    (hm : d.create (g.engine three) = .ok m) (k : Kind) (hk : Pair d k) (hr : Round (places d k)) (p : Point)
    (hp : C80.Runs d p) (a b : ℚ) (ha : p.get (vars k).1 = some a) (hb : p.get (vars k).2 = some b)
    (hz : Area (places d k) (C80.readAt (vars k).1 a, C80.readAt (vars k).2 b)) :
    ∃ e, m.energyAt p = .ok (some e) ∧ Blend (samples d k) (C80.readAt (vars k).1 a, C80.readAt (vars k).2 b, e) := by
  obtain ⟨h, pl, h1, h2, h3⟩ := two_inner hm hk
  have hh := hg.hull _ _ h1
  obtain ⟨f1, f2⟩ := plane_follows hh hr h2
  obtain ⟨-, -, p3, -, -⟩ := project_spec f1 f2 (C80.readAt (vars k).1 a) (C80.readAt (vars k).2 b)
  have hz' := ((hg.interp (samples d k)).domain _).2 hz
  obtain ⟨e, he⟩ := Option.isSome_iff_exists.1 hz'
  refine ⟨e, ?_, (hg.interp _).blend _ _ he⟩
  rw [eval_two hm hp ha hb h3]
  unfold Geometry.evaluate
  rw [p3 hz, he]

theorem blend_bound {rows : List (ℚ × ℚ × ℚ)} {lo hi : ℚ} (h : ∀ r ∈ rows, lo ≤ r.2.2 ∧ r.2.2 ≤ hi) {r : ℚ × ℚ × ℚ}
    (hr : Blend rows r) : lo ≤ r.2.2 ∧ r.2.2 ≤ hi := by
  induction hr with
  | sample hp => exact h _ hp
  | @mix p q k h0 h1 _ _ ih1 ih2 =>
    obtain ⟨a1, a2⟩ := ih1
    obtain ⟨b1, b2⟩ := ih2
    constructor <;> simp only <;> nlinarith

/-- The energy is never below the lowest or above the highest sampled energy, wherever the compressor has a value, and
for every shape of the sampled area. -/
theorem C81_range (g : Geometry) (hg : Promise g) (three) (d : Data) (m : Model)
    (hm : d.create (g.engine three) = .ok m) (k : Kind) (hk : Pair d k) (p : Point) (hp : C80.Runs d p) (a b e : ℚ)
    (ha : p.get (vars k).1 = some a) (hb : p.get (vars k).2 = some b) (he : m.energyAt p = .ok (some e)) (lo hi : ℚ)
    (hl : ∀ x ∈ d.energy, lo ≤ x ∧ x ≤ hi) : lo ≤ e ∧ e ≤ hi := by
  obtain ⟨h, pl, h1, h2, h3⟩ := two_inner hm hk
  rw [eval_two hm hp ha hb h3] at he
  have he := Except.ok.inj he
  refine blend_bound (rows := samples d k) (fun r hr => hl _ ?_) ((hg.interp _).blend _ _ he)
  exact (List.of_mem_zip (List.of_mem_zip hr).2).2

/-- The maximum rate at a pressure is the largest rate of the sampled area that is available there, and zero when the
pressure is out of reach. -/
theorem C81_max_rate (pts : List (ℚ × ℚ)) (h : Hull) (hh : IsHull pts h) (hr : Round pts) (k : Kind) (hk : k ≠ .psPd)
    (pl : Plane) (he : Plane.make k h = .ok pl) (y : ℚ) :
    ∃ M, pl.getMaxRate y = .ok (some M) ∧
      ((∃ z, Area pts z ∧ Serves k z.1 y z) → (∃ z, Area pts z ∧ Serves k z.1 y z ∧ z.1 = M) ∧
        ∀ z, Area pts z → Serves k z.1 y z → z.1 ≤ M) ∧
      ((¬ ∃ z, Area pts z ∧ Serves k z.1 y z) → M = 0) := by
  have hsv : ∀ z, Serves k z.1 y z ↔ signOf k * y ≤ signOf k * z.2 := by
    intro z
    cases k with
    | ratePd => simp [Serves, signOf]
    | ratePs => simp [Serves, signOf]
    | psPd => exact absurd rfl hk
  simp only [hsv]
  obtain ⟨c, hc, hce⟩ : ∃ c, pl.maxRate = some c ∧ Curve.makeMax k (h.pointsOf (h.upperMonotonic k)) = .ok c := by
    cases k with
    | psPd => exact absurd rfl hk
    | ratePd =>
      obtain ⟨c1, e1, he⟩ := C80.bind_ok he
      obtain ⟨c2, e2, he⟩ := C80.bind_ok he
      obtain ⟨c3, e3, he⟩ := C80.bind_ok he
      have := (Except.ok.inj he).symm
      subst this
      exact ⟨c3, rfl, e3⟩
    | ratePs =>
      obtain ⟨c1, e1, he⟩ := C80.bind_ok he
      obtain ⟨c2, e2, he⟩ := C80.bind_ok he
      obtain ⟨c3, e3, he⟩ := C80.bind_ok he
      have := (Except.ok.inj he).symm
      subst this
      exact ⟨c3, rfl, e3⟩
  unfold Plane.getMaxRate
  rw [hc]
  simp only
  rcases max_rate_spec hh hr hk hce y with ⟨h1, M, e, h2, h3⟩ | ⟨h1, e⟩
  · exact ⟨M, by rw [e], fun _ => ⟨h2, h3⟩, fun h => absurd h1 h⟩
  · exact ⟨0, by rw [e], fun h => absurd h h1, fun _ => rfl⟩

/-- A positive rate is within the maximum rate exactly when the compressor has a value there. -/
theorem C81_max_rate_valid (g : Geometry) (hg : Promise g) (rows : List (ℚ × ℚ × ℚ)) (h : Hull)
    (hh : g.hull rows = .ok h) (hr : Round (rows.map fun r => (r.1, r.2.1))) (k : Kind) (hk : k ≠ .psPd) (pl : Plane)
    (he : Plane.make k h = .ok pl) (x y M : ℚ) (hx : 0 < x) (hM : pl.getMaxRate y = .ok (some M)) :
    x ≤ M ↔ (g.evaluate rows k pl x y).isSome := by
  have hh := hg.hull _ _ hh
  obtain ⟨f1, f2⟩ := plane_follows hh hr he
  obtain ⟨p1, p2, -, -, -⟩ := project_spec f1 f2 x y
  obtain ⟨M', e, h1, h2⟩ := C81_max_rate _ h hh hr k hk pl he y
  rw [hM] at e
  cases e
  unfold Geometry.evaluate
  rw [(hg.interp _).domain]
  have split : ∀ z, Serves k x y z ↔ x ≤ z.1 ∧ Serves k z.1 y z := by
    intro z
    cases k with
    | ratePd => simp [Serves]
    | ratePs => simp [Serves]
    | psPd => exact absurd rfl hk
  constructor
  · intro hle
    by_cases hz : ∃ z, Area (rows.map fun r => (r.1, r.2.1)) z ∧ Serves k z.1 y z
    · obtain ⟨⟨z, ha, hs, e⟩, -⟩ := h1 hz
      exact p2 ⟨z, ha, (split z).2 ⟨by rw [e]; exact hle, hs⟩⟩
    · have := h2 hz; linarith
  · intro ha
    have hs := (split _).1 p1
    exact hs.1.trans ((h1 ⟨_, ha, hs.2⟩).2 _ ha hs.2)

/-- The middle of the table always belongs to the sampled area. -/
theorem C81_middle (pts : List (ℚ × ℚ)) (h : Hull) (hh : IsHull pts h) (m : ℚ × ℚ) (hm : Middle pts m) : Area pts m := by
  obtain ⟨l, hl, r, hr, d, hd, u, hu, hall, rfl⟩ := hm
  refine (hh.area _).2 fun f hf => ?_
  have v : ∀ p ∈ pts, val f p ≤ 0 := fun p hp => (hh.area p).1 (.sample hp) f hf
  have vl := v l hl; have vr := v r hr; have vd := v d hd; have vu := v u hu
  obtain ⟨l1, l2, l3, l4⟩ := hall l hl
  obtain ⟨r1, r2, r3, r4⟩ := hall r hr
  obtain ⟨d1, d2, d3, d4⟩ := hall d hd
  obtain ⟨u1, u2, u3, u4⟩ := hall u hu
  unfold val at *
  simp only
  rcases le_total 0 f.a with ha | ha <;> rcases le_total 0 f.b with hb | hb
  · have q1 : 0 ≤ f.a * (u.1 - l.1) := mul_nonneg ha (by linarith)
    have q2 : 0 ≤ f.b * (r.2 - d.2) := mul_nonneg hb (by linarith)
    nlinarith
  · have q1 : 0 ≤ f.a * (d.1 - l.1) := mul_nonneg ha (by linarith)
    have q2 : 0 ≤ -f.b * (u.2 - r.2) := mul_nonneg (by linarith) (by linarith)
    nlinarith
  · have q1 : 0 ≤ -f.a * (r.1 - u.1) := mul_nonneg (by linarith) (by linarith)
    have q2 : 0 ≤ f.b * (l.2 - d.2) := mul_nonneg hb (by linarith)
    nlinarith
  · have q1 : 0 ≤ -f.a * (r.1 - d.1) := mul_nonneg (by linarith) (by linarith)
    have q2 : 0 ≤ -f.b * (u.2 - l.2) := mul_nonneg (by linarith) (by linarith)
    nlinarith

theorem both_zero {c1 c2 x1 x2 : ℚ} (h1 : 0 < c1) (h2 : 0 < c2) (h3 : 0 ≤ x1) (h4 : 0 ≤ x2)
    (h : c1 * x1 + c2 * x2 ≤ 0) : x1 = 0 ∧ x2 = 0 := by
  have q1 := mul_nonneg h1.le h3
  have q2 := mul_nonneg h2.le h4
  exact ⟨(mul_eq_zero.1 (by linarith : c1 * x1 = 0)).resolve_left h1.ne', (mul_eq_zero.1 (by linarith : c2 * x2 = 0)).resolve_left h2.ne'⟩

/-- The middle is on the edge of the area only when two opposite corners of the smallest rectangle around the samples are
themselves samples, or when a variable does not vary. -/
theorem C81_round (pts : List (ℚ × ℚ)) (h : ¬ Round pts) :
    (∃ p ∈ pts, ∃ q ∈ pts, ∀ w ∈ pts, min p.1 q.1 ≤ w.1 ∧ w.1 ≤ max p.1 q.1 ∧ min p.2 q.2 ≤ w.2 ∧ w.2 ≤ max p.2 q.2) ∨
    (∀ p ∈ pts, ∀ q ∈ pts, p.1 = q.1) ∨ (∀ p ∈ pts, ∀ q ∈ pts, p.2 = q.2) := by
  unfold Round at h
  push Not at h
  obtain ⟨m, ⟨l, hl, r, hr, d, hd, u, hu, hall, rfl⟩, a, b, hab, hle⟩ := h
  have vl := hle l hl; have vr := hle r hr; have vd := hle d hd; have vu := hle u hu
  obtain ⟨l1, l2, l3, l4⟩ := hall l hl
  obtain ⟨r1, r2, r3, r4⟩ := hall r hr
  obtain ⟨d1, d2, d3, d4⟩ := hall d hd
  obtain ⟨u1, u2, u3, u4⟩ := hall u hu
  simp only at vl vr vd vu
  have corners : ∀ p ∈ pts, ∀ q ∈ pts, ((p.1 = l.1 ∧ q.1 = r.1) ∨ (p.1 = r.1 ∧ q.1 = l.1)) →
      ((p.2 = d.2 ∧ q.2 = u.2) ∨ (p.2 = u.2 ∧ q.2 = d.2)) →
      ∃ p ∈ pts, ∃ q ∈ pts, ∀ w ∈ pts, min p.1 q.1 ≤ w.1 ∧ w.1 ≤ max p.1 q.1 ∧ min p.2 q.2 ≤ w.2 ∧ w.2 ≤ max p.2 q.2 := by
    intro p hp q hq h1 h2
    refine ⟨p, hp, q, hq, fun w hw => ?_⟩
    obtain ⟨w1, w2, w3, w4⟩ := hall w hw
    simp only [min_le_iff, le_max_iff]
    refine ⟨?_, ?_, ?_, ?_⟩
    · rcases h1 with ⟨e, -⟩ | ⟨-, e⟩
      · exact .inl (e ▸ w1)
      · exact .inr (e ▸ w1)
    · rcases h1 with ⟨-, e⟩ | ⟨e, -⟩
      · exact .inr (e ▸ w2)
      · exact .inl (e ▸ w2)
    · rcases h2 with ⟨e, -⟩ | ⟨-, e⟩
      · exact .inl (e ▸ w3)
      · exact .inr (e ▸ w3)
    · rcases h2 with ⟨-, e⟩ | ⟨e, -⟩
      · exact .inr (e ▸ w4)
      · exact .inl (e ▸ w4)
  have flat1 : r.1 ≤ l.1 → ∀ p ∈ pts, ∀ q ∈ pts, p.1 = q.1 := by
    intro h p hp q hq
    obtain ⟨p1, p2, -, -⟩ := hall p hp
    obtain ⟨q1, q2, -, -⟩ := hall q hq
    linarith
  have flat2 : u.2 ≤ d.2 → ∀ p ∈ pts, ∀ q ∈ pts, p.2 = q.2 := by
    intro h p hp q hq
    obtain ⟨-, -, p1, p2⟩ := hall p hp
    obtain ⟨-, -, q1, q2⟩ := hall q hq
    linarith
  rcases lt_trichotomy a 0 with ha | ha | ha <;> rcases lt_trichotomy b 0 with hb | hb | hb
  · left
    obtain ⟨e1, e2⟩ := both_zero (c1 := -a) (c2 := -b) (x1 := r.1 - d.1) (x2 := u.2 - l.2) (by linarith) (by linarith) (by linarith)
      (by linarith) (by linarith)
    exact corners l hl d hd (.inl ⟨rfl, by linarith⟩) (.inr ⟨by linarith, rfl⟩)
  · right; left
    apply flat1
    subst hb
    by_contra hc
    nlinarith
  · left
    obtain ⟨e1, e2⟩ := both_zero (c1 := -a) (c2 := b) (x1 := r.1 - u.1) (x2 := l.2 - d.2) (by linarith) (by linarith) (by linarith)
      (by linarith) (by linarith)
    exact corners l hl u hu (.inl ⟨rfl, by linarith⟩) (.inl ⟨by linarith, rfl⟩)
  · right; right
    apply flat2
    subst ha
    by_contra hc
    nlinarith
  · exact absurd hab (by simp [ha, hb])
  · right; right
    apply flat2
    subst ha
    by_contra hc
    nlinarith
  · left
    obtain ⟨e1, e2⟩ := both_zero (c1 := a) (c2 := -b) (x1 := d.1 - l.1) (x2 := u.2 - r.2) (by linarith) (by linarith) (by linarith)
      (by linarith) (by linarith)
    exact corners r hr d hd (.inr ⟨rfl, by linarith⟩) (.inr ⟨by linarith, rfl⟩)
  · right; left
    apply flat1
    subst hb
    by_contra hc
    nlinarith
  · left
    obtain ⟨e1, e2⟩ := both_zero (c1 := a) (c2 := b) (x1 := u.1 - l.1) (x2 := r.2 - d.2) (by linarith) (by linarith) (by linarith)
      (by linarith) (by linarith)
    exact corners r hr u hu (.inr ⟨rfl, by linarith⟩) (.inl ⟨by linarith, rfl⟩)

theorem make_error {ps : List (ℚ × ℚ)} {x : Axis} {e : SErr} (h : Curve.make ps x = .error e) : e = .indexError := by
  unfold Curve.make at h
  split at h
  · cases h; rfl
  · cases h

/-- A table whose highest rate is sampled once, together with the highest discharge pressure or the lowest suction
pressure, is refused with an IndexError. -/
theorem C81_corner (g : Geometry) (hg : Promise g) (three) (d : Data) (hs : C80.Sound d) (k : Kind) (hk : k ≠ .psPd)
    (hp : Pair d k) (hr : Round (places d k)) (h : Hull) (hh : g.hull (samples d k) = .ok h) (P : ℚ × ℚ)
    (hP : P ∈ places d k) (htop : ∀ q ∈ places d k, q ≠ P → q.1 < P.1 ∧ Serves k q.1 q.2 P) :
    d.create (g.engine three) = .error .indexError := by
  have hI := hg.hull _ _ hh
  have hsv : ∀ q : ℚ × ℚ, Serves k q.1 q.2 P → signOf k * q.2 ≤ signOf k * P.2 := by
    intro q hq
    cases k with
    | ratePd => simpa [Serves, signOf] using hq.2
    | ratePs => simpa [Serves, signOf] using hq.2
    | psPd => exact absurd rfl hk
  have hnil : h.upperMonotonic k = [] := by
    by_contra hne
    obtain ⟨f, hf⟩ := List.exists_mem_of_ne_nil _ hne
    obtain ⟨⟨h1, h2⟩, h3⟩ := (mem_mono hI hr hk f).1 hf
    obtain ⟨p, q, ⟨e1, e2⟩, hpq, v1, v2⟩ := hI.ends f h1
    have hpm : p ∈ places d k := by have := List.mem_of_getElem? e1; rwa [hI.points] at this
    have hqm : q ∈ places d k := by have := List.mem_of_getElem? e2; rwa [hI.points] at this
    have key : ∀ w ∈ places d k, val f w = 0 → w = P := by
      intro w hw hv
      by_contra hc
      obtain ⟨t1, t2⟩ := htop w hw hc
      have := mono_bound hI (signOf_or k) h1 h2 h3 hv (.sample hP) (hsv w t2)
      linarith
    exact hpq ((key p hpm v1).trans (key q hqm v2).symm)
  have hmax : Curve.makeMax k (h.pointsOf (h.upperMonotonic k)) = .error .indexError := by
    rw [hnil]
    have : h.pointsOf [] = [] := by
      cases hq : h.pointsOf [] with
      | nil => rfl
      | cons p l =>
        have : p ∈ h.pointsOf [] := by rw [hq]; simp
        obtain ⟨f, hf, -⟩ := mem_pointsOf.1 this
        cases hf
    rw [this]
    rfl
  have hpl : Plane.make k h = .error .indexError := by
    cases k with
    | psPd => exact absurd rfl hk
    | ratePd =>
      simp only [Plane.make, makeRatePd]
      cases h1 : Curve.make (h.pointsOf (h.lower .zero)) .one with
      | error e => rw [make_error h1]; rfl
      | ok c1 =>
        cases h2 : Curve.make (h.pointsOf (h.lower .one)) .zero with
        | error e => rw [make_error h2]; rfl
        | ok c2 => rw [hmax]; rfl
    | ratePs =>
      simp only [Plane.make, makeRatePs]
      cases h1 : Curve.make (h.pointsOf (h.lower .zero)) .one with
      | error e => rw [make_error h1]; rfl
      | ok c1 =>
        cases h2 : Curve.make (h.pointsOf (h.upper .one)) .zero with
        | error e => rw [make_error h2]; rfl
        | ok c2 => rw [hmax]; rfl
  have htwo : (g.engine three).two k (samples d k) = .error .indexError := by
    simp only [Geometry.engine, hh]
    change (Plane.make k h >>= fun pl => _) = _
    rw [hpl]; rfl
  rw [C80.create_sound hs]
  have : d.inner (g.engine three) = .error .indexError := by
    unfold Data.inner
    rw [varying_pair hs hp]
    cases k with
    | psPd => exact absurd rfl hk
    | ratePd => change ((g.engine three).two .ratePd (samples d .ratePd) >>= fun f => _) = _; rw [htwo]; rfl
    | ratePs => change ((g.engine three).two .ratePs (samples d .ratePs) >>= fun f => _) = _; rw [htwo]; rfl
  rw [this]; rfl

/-! ## Examples and deviations -/

theorem tri {pts : List (ℚ × ℚ)} {A B C : ℚ × ℚ} (hA : A ∈ pts) (hB : B ∈ pts) (hC : C ∈ pts) {u v w : ℚ} (hu : 0 ≤ u)
    (hv : 0 ≤ v) (hw : 0 ≤ w) (hs : u + v + w = 1) {z : ℚ × ℚ}
    (hz : z = (u * A.1 + v * B.1 + w * C.1, u * A.2 + v * B.2 + w * C.2)) : Area pts z := by
  rcases eq_or_lt_of_le (add_nonneg hv hw) with e | hlt
  · have hv0 : v = 0 := by linarith
    have hw0 : w = 0 := by linarith
    have hu1 : u = 1 := by linarith
    subst hv0 hw0 hu1
    rw [hz]
    simpa using Area.sample hA
  · have h1 : w / (v + w) ≤ 1 := by rw [div_le_one hlt]; linarith
    have := Area.mix (v + w) hlt.le (by linarith) (Area.sample hA)
      (Area.mix (w / (v + w)) (div_nonneg hw hlt.le) h1 (Area.sample hB) (Area.sample hC))
    rw [hz]
    convert this using 2
    · have : (v + w) * ((1 - w / (v + w)) * B.1 + w / (v + w) * C.1) = v * B.1 + w * C.1 := by field_simp; ring
      simp only at this ⊢
      rw [this]; linear_combination A.1 * hs
    · have : (v + w) * ((1 - w / (v + w)) * B.2 + w / (v + w) * C.2) = v * B.2 + w * C.2 := by field_simp; ring
      simp only at this ⊢
      rw [this]; linear_combination A.2 * hs

theorem blend_iff {rows : List (ℚ × ℚ × ℚ)} {z : ℚ × ℚ} :
    (∃ e, Blend rows (z.1, z.2, e)) ↔ Area (rows.map fun r => (r.1, r.2.1)) z := by
  constructor
  · rintro ⟨e, he⟩
    have : ∀ r, Blend rows r → Area (rows.map fun r => (r.1, r.2.1)) (r.1, r.2.1) := by
      intro r hr
      induction hr with
      | sample h => exact .sample (List.mem_map.2 ⟨_, h, rfl⟩)
      | mix k h0 h1 _ _ ih1 ih2 => exact .mix k h0 h1 ih1 ih2
    exact this _ he
  · intro h
    induction h with
    | sample h =>
      obtain ⟨r, hr, rfl⟩ := List.mem_map.1 h
      exact ⟨r.2.2, .sample hr⟩
    | mix k h0 h1 _ _ ih1 ih2 =>
      obtain ⟨e1, b1⟩ := ih1
      obtain ⟨e2, b2⟩ := ih2
      exact ⟨_, .mix k h0 h1 b1 b2⟩

open Classical in
/-- A library that keeps the promise and knows one hull. -/
noncomputable def oneHull (rows : List (ℚ × ℚ × ℚ)) (h : Hull) : Geometry where
  hull r := if r = rows then .ok h else .error .hull
  interp r z := if hz : ∃ e, Blend r (z.1, z.2, e) then some hz.choose else none

theorem oneHull_promise {rows : List (ℚ × ℚ × ℚ)} {h : Hull} (hh : IsHull (rows.map fun r => (r.1, r.2.1)) h) :
    Promise (oneHull rows h) := by
  refine ⟨fun r h' e => ?_, fun r => ⟨fun z => ?_, fun z e he => ?_⟩⟩
  · simp only [oneHull] at e
    split at e
    · rename_i hr
      cases e
      rw [hr]; exact hh
    · cases e
  · rw [← blend_iff]
    simp only [oneHull]
    split
    · rename_i hz; simp [hz]
    · rename_i hz; simp [hz]
  · simp only [oneHull] at he
    split at he
    · rename_i hz
      cases he
      exact hz.choose_spec
    · cases he

/-- In these tables the energy is ten times the first variable. -/
theorem blend_ten {rows : List (ℚ × ℚ × ℚ)} (h : ∀ r ∈ rows, r.2.2 = 10 * r.1) {r : ℚ × ℚ × ℚ} (hr : Blend rows r) :
    r.2.2 = 10 * r.1 := by
  induction hr with
  | sample hp => exact h _ hp
  | mix k _ _ _ _ ih1 ih2 => simp only [ih1, ih2]; ring

theorem interp_ten {rows : List (ℚ × ℚ × ℚ)} {h : Hull} (hr : ∀ r ∈ rows, r.2.2 = 10 * r.1) {z : ℚ × ℚ}
    (hz : Area (rows.map fun r => (r.1, r.2.1)) z) : (oneHull rows h).interp rows z = some (10 * z.1) := by
  have hb := blend_iff.2 hz
  simp only [oneHull, dif_pos hb]
  exact congrArg some (blend_ten hr hb.choose_spec)

/-- Three samples of rate and discharge pressure. -/
def table : Data := { isPower := true, energy := [10, 30, 20], rate := some [1, 3, 2], pd := some [1, 2, 3] }

@[inherit_doc table] def tableHull : Hull :=
  ⟨[(1, 1), (3, 2), (2, 3)], [⟨0, 1, 1, -2, 1⟩, ⟨1, 2, 1, 1, -5⟩, ⟨2, 0, -2, 1, 1⟩]⟩

theorem table_places : places table .ratePd = [(1, 1), (3, 2), (2, 3)] := by decide +kernel

theorem table_hull : IsHull (places table .ratePd) tableHull := by
  rw [table_places]
  refine ⟨rfl, fun z => ⟨fun hz f hf => ?_, fun hz => ?_⟩, ?_, ?_⟩
  · have : ∀ p ∈ [((1 : ℚ), (1 : ℚ)), (3, 2), (2, 3)], f.a * p.1 + f.b * p.2 ≤ -f.c := by
      simp only [tableHull, List.mem_cons, List.not_mem_nil, or_false] at hf
      rcases hf with rfl | rfl | rfl <;> decide +kernel
    have := area_bound this hz
    unfold val; linarith
  · simp only [tableHull, List.forall_mem_cons, val] at hz
    obtain ⟨h1, h2, h3, -⟩ := hz
    refine tri (A := (1, 1)) (B := (3, 2)) (C := (2, 3)) (u := (5 - z.1 - z.2) / 3) (v := (2 * z.1 - z.2 - 1) / 3)
      (w := (2 * z.2 - z.1 - 1) / 3) (by simp) (by simp) (by simp) (by linarith) (by linarith) (by linarith) (by ring) ?_
    ext <;> simp only <;> ring
  · intro f hf
    simp only [tableHull, List.mem_cons, List.not_mem_nil, or_false] at hf
    rcases hf with rfl | rfl | rfl
    · exact ⟨(1, 1), (3, 2), ⟨rfl, rfl⟩, by decide +kernel⟩
    · exact ⟨(3, 2), (2, 3), ⟨rfl, rfl⟩, by decide +kernel⟩
    · exact ⟨(2, 3), (1, 1), ⟨rfl, rfl⟩, by decide +kernel⟩
  · intro f hf z hz hv
    have hall : ∀ f ∈ tableHull.facets, ∀ p ∈ [((1 : ℚ), (1 : ℚ)), (3, 2), (2, 3)], f.a * p.1 + f.b * p.2 ≤ -f.c := by
      decide +kernel
    have b1 := area_bound (hall ⟨0, 1, 1, -2, 1⟩ (by simp [tableHull])) hz
    have b2 := area_bound (hall ⟨1, 2, 1, 1, -5⟩ (by simp [tableHull])) hz
    have b3 := area_bound (hall ⟨2, 0, -2, 1, 1⟩ (by simp [tableHull])) hz
    simp only at b1 b2 b3
    refine ⟨f, hf, 1, one_pos, (one_mul _).symm, (one_mul _).symm, ?_⟩
    simp only [tableHull, List.mem_cons, List.not_mem_nil, or_false] at hf
    rcases hf with rfl | rfl | rfl <;> simp only [val] at hv
    · refine ⟨(1, 1), (3, 2), ⟨rfl, rfl⟩, z.2 - 1, by linarith, by linarith, ?_⟩
      ext <;> simp only <;> linarith
    · refine ⟨(3, 2), (2, 3), ⟨rfl, rfl⟩, z.2 - 2, by linarith, by linarith, ?_⟩
      ext <;> simp only <;> linarith
    · refine ⟨(2, 3), (1, 1), ⟨rfl, rfl⟩, 2 - z.1, by linarith, by linarith, ?_⟩
      ext <;> simp only <;> linarith

theorem middle_unique {pts : List (ℚ × ℚ)} {m m' : ℚ × ℚ} (h : Middle pts m) (h' : Middle pts m') : m = m' := by
  obtain ⟨l, hl, r, hr, d, hd, u, hu, hall, rfl⟩ := h
  obtain ⟨l', hl', r', hr', d', hd', u', hu', hall', rfl⟩ := h'
  have a1 := hall l' hl'; have a2 := hall r' hr'; have a3 := hall d' hd'; have a4 := hall u' hu'
  have b1 := hall' l hl; have b2 := hall' r hr; have b3 := hall' d hd; have b4 := hall' u hu
  ext <;> simp only <;> linarith [a1.1, a2.2.1, a3.2.2.1, a4.2.2.2, b1.1, b2.2.1, b3.2.2.1, b4.2.2.2]

theorem table_round : Round (places table .ratePd) := by
  rw [table_places]
  intro m hm a b hab
  have : Middle [((1 : ℚ), (1 : ℚ)), (3, 2), (2, 3)] (2, 2) :=
    ⟨(1, 1), by simp, (3, 2), by simp, (1, 1), by simp, (2, 3), by simp, by decide +kernel, by norm_num⟩
  rw [middle_unique hm this]
  by_contra hc
  push Not at hc
  have h1 := hc (1, 1) (by simp)
  have h2 := hc (3, 2) (by simp)
  have h3 := hc (2, 3) (by simp)
  norm_num at h1 h2 h3
  have ha : a = 0 := by linarith
  have hb : b = 0 := by linarith
  tauto

theorem table_sound : C80.Sound table := (C80.sound_iff _).2 ⟨by decide +kernel, by decide +kernel, by decide +kernel⟩

theorem table_pair : Pair table .ratePd := by
  intro v
  rw [← C80.mem_varying table_sound]
  cases v <;> decide +kernel

theorem table_samples : samples table .ratePd = [(1, 1, 10), (3, 2, 30), (2, 3, 20)] := by decide +kernel

/-- The curves made from the three samples. -/
def tablePlane : Plane :=
  ⟨⟨[(1, 1), (3, 2)], some 1, some 2⟩, ⟨[(1, 1), (3, 2)], some 1, some 2⟩, some ⟨[(2, 3), (3, 2)], some 3, some 0⟩⟩

theorem table_plane : Plane.make .ratePd tableHull = .ok tablePlane := by decide +kernel

/-- The library for the three samples. -/
noncomputable abbrev tableGeometry : Geometry := oneHull (samples table .ratePd) tableHull

theorem tableGeometry_promise : Promise tableGeometry := oneHull_promise table_hull

/-- No interpolator for three varying variables. -/
def noThree : List (ℚ × ℚ × ℚ × ℚ) → Except SErr (ℚ → ℚ → ℚ → Fl) := fun _ => .error .hull

/-- The compressor made from the three samples. -/
noncomputable def tableModel : Model :=
  ⟨table, .two .ratePd (tableGeometry.evaluate (samples table .ratePd) .ratePd tablePlane)⟩

theorem table_created : table.create (tableGeometry.engine noThree) = .ok tableModel := by
  rw [C80.create_sound table_sound]
  unfold Data.inner
  rw [varying_pair table_sound table_pair]
  have : (tableGeometry.engine noThree).two .ratePd (samples table .ratePd) =
      .ok (tableGeometry.evaluate (samples table .ratePd) .ratePd tablePlane) := by
    simp only [Geometry.engine]
    have h1 : tableGeometry.hull (samples table .ratePd) = .ok tableHull := by simp [oneHull]
    rw [h1]
    change (Plane.make .ratePd tableHull >>= fun pl => _) = _
    rw [table_plane]; rfl
  change Except.bind (Except.bind ((tableGeometry.engine noThree).two .ratePd (samples table .ratePd)) _) _ = _
  rw [this]
  rfl

theorem table_runs (r s : ℚ) (h : epsilon < r) : C80.Runs table ⟨some r, none, some s⟩ := by
  have hno : ∀ v c, v ≠ .ps → ¬ C80.Always table v c := by
    rintro v c hv ⟨l, h1, -, h3⟩
    cases v with
    | rate => cases h1; have a := h3 1 (by simp); have b := h3 3 (by simp); linarith
    | ps => exact absurd rfl hv
    | pd => cases h1; have a := h3 1 (by simp); have b := h3 2 (by simp); linarith
  refine ⟨fun r' e => (by cases e; exact h), fun r' c _ hc => absurd hc (hno _ _ (by simp)), fun s' c e => (by cases e),
    fun s' c _ hc => absurd hc (hno _ _ (by simp))⟩

theorem epsilon_lt : epsilon < 1 := by unfold epsilon; norm_num

/-- Rate 1 at discharge pressure 2 is to the left of the area: it costs what rate 1.5 costs. -/
example : tableModel.energyAt ⟨some (1 + epsilon), none, some 2⟩ = .ok (some 15) := by
  have h0 : (0 : ℚ) < epsilon := by unfold epsilon; positivity
  rw [eval_two (k := .ratePd) table_created (table_runs (1 + epsilon) 2 (by linarith)) (a := 1 + epsilon) (b := 2) rfl rfl rfl]
  have h1 : C80.readAt (vars .ratePd).1 (1 + epsilon) = 1 := by simp [C80.readAt, vars]
  have h2 : C80.readAt (vars .ratePd).2 2 = 2 := by simp [C80.readAt, vars]
  rw [h1, h2]
  unfold Geometry.evaluate
  have hp : tablePlane.project .ratePd 1 2 = (3 / 2, 2) := by decide +kernel
  rw [hp, interp_ten (by decide +kernel) (z := (3 / 2, 2)) ?_]
  · norm_num
  · refine (table_hull.area _).2 ?_
    simp only [tableHull, val]; norm_num

/-- Rate 3 at discharge pressure 3 is beyond every point of the area. -/
example : ∃ e, tableModel.energyAt ⟨some (3 + epsilon), none, some 3⟩ = .ok e ∧ e = none := by
  have h0 : (0 : ℚ) < epsilon := by unfold epsilon; positivity
  have h1 := epsilon_lt
  obtain ⟨e, he, hv⟩ := C81_valid tableGeometry tableGeometry_promise noThree table tableModel table_created .ratePd
    table_pair table_round ⟨some (3 + epsilon), none, some 3⟩ (table_runs (3 + epsilon) 3 (by linarith)) (3 + epsilon) 3 rfl rfl
  refine ⟨e, he, ?_⟩
  cases e with
  | none => rfl
  | some e =>
    obtain ⟨z, hz, s1, s2⟩ := hv.1 rfl
    simp only [C80.readAt, vars, if_true, reduceCtorEq, if_false] at s1 s2
    have := (table_hull.area z).1 hz ⟨1, 2, 1, 1, -5⟩ (by simp [tableHull])
    simp only [val] at this
    linarith

/-- The maximum rate: 3 below discharge pressure 2, then falling, zero above 3. -/
example : tablePlane.getMaxRate 0 = .ok (some 3) ∧ tablePlane.getMaxRate (5 / 2) = .ok (some (5 / 2)) ∧
    tablePlane.getMaxRate 4 = .ok (some 0) := by decide +kernel

example : (2 : ℚ) ≤ 5 / 2 ↔ (tableGeometry.evaluate (samples table .ratePd) .ratePd tablePlane 2 (5 / 2)).isSome :=
  C81_max_rate_valid tableGeometry tableGeometry_promise (samples table .ratePd) tableHull (by simp [oneHull]) table_round .ratePd
    (by simp) tablePlane table_plane 2 (5 / 2) (5 / 2) (by norm_num) (by decide +kernel)

/-- The test of the repository (test_compressor_sampled_2d.py:16-56): the projections and the maximum rates. -/
def testHull : Hull :=
  ⟨[(8, 5), (3, 1), (1, 4), (2, 2), (2, 6), (3, 7), (4, 8), (7, 6), (7, 3), (5, 2), (4, 4)],
   [⟨1, 3, -1, -1, 4⟩, ⟨3, 2, -2, -1, 6⟩, ⟨2, 4, -2, 1, -2⟩, ⟨4, 6, -1, 1, -4⟩, ⟨6, 7, 2, 3, -32⟩, ⟨7, 0, 1, 1, -13⟩,
    ⟨0, 8, 2, -1, -11⟩, ⟨8, 9, 1, -2, -1⟩, ⟨9, 1, 1, -2, -1⟩]⟩

example : ((Plane.make .ratePd testHull).map fun pl =>
      ([((4 : ℚ), (4 : ℚ)), (5 / 2, 4), (5, 9), (2, 7), (1, 2), (6, 1), (7, 7), (2, 10), (2, 0), (9, 1), (9, 9)].map
        (fun p => pl.project .ratePd p.1 p.2), [(0 : ℚ), 2, 4, 6, 8, 9].map fun y => pl.getMaxRate y)) =
    .ok ([(4, 4), (5 / 2, 4), (5, 9), (3, 7), (2, 2), (6, 5 / 2), (7, 7), (4, 10), (3, 1), (9, 5), (9, 9)],
      [8, 8, 8, 7, 4, 0].map (fun r => .ok (some r))) := by decide +kernel

/-- A triangular table: the line from the highest rate to the highest discharge pressure goes through the middle. -/
def steps : List (ℚ × ℚ × ℚ) := [(1, 10, 10), (2, 10, 20), (3, 10, 30), (1, 20, 10), (2, 20, 20), (1, 30, 10)]

@[inherit_doc steps] def stepsHull : Hull :=
  ⟨[(1, 10), (2, 10), (3, 10), (1, 20), (2, 20), (1, 30)], [⟨0, 2, 0, -1, 10⟩, ⟨2, 5, 10, 1, -40⟩, ⟨5, 0, -1, 0, 1⟩]⟩

theorem steps_hull : IsHull (steps.map fun r => (r.1, r.2.1)) stepsHull := by
  have hp : (steps.map fun r => (r.1, r.2.1)) = stepsHull.points := rfl
  have hall : ∀ f ∈ stepsHull.facets, ∀ p ∈ stepsHull.points, f.a * p.1 + f.b * p.2 ≤ -f.c := by decide +kernel
  rw [hp]
  refine ⟨rfl, fun z => ⟨fun hz f hf => ?_, fun hz => ?_⟩, ?_, ?_⟩
  · have := area_bound (hall f hf) hz
    unfold val; linarith
  · simp only [stepsHull, List.forall_mem_cons, val] at hz
    obtain ⟨h1, h2, h3, -⟩ := hz
    refine tri (A := (1, 10)) (B := (3, 10)) (C := (1, 30)) (u := (40 - 10 * z.1 - z.2) / 20) (v := (z.1 - 1) / 2)
      (w := (z.2 - 10) / 20) (by simp [stepsHull]) (by simp [stepsHull]) (by simp [stepsHull]) (by linarith) (by linarith)
      (by linarith) (by ring) ?_
    ext <;> simp only <;> ring
  · intro f hf
    simp only [stepsHull, List.mem_cons, List.not_mem_nil, or_false] at hf
    rcases hf with rfl | rfl | rfl
    · exact ⟨(1, 10), (3, 10), ⟨rfl, rfl⟩, by decide +kernel⟩
    · exact ⟨(3, 10), (1, 30), ⟨rfl, rfl⟩, by decide +kernel⟩
    · exact ⟨(1, 30), (1, 10), ⟨rfl, rfl⟩, by decide +kernel⟩
  · intro f hf z hz hv
    have b1 := area_bound (hall ⟨0, 2, 0, -1, 10⟩ (by simp [stepsHull])) hz
    have b2 := area_bound (hall ⟨2, 5, 10, 1, -40⟩ (by simp [stepsHull])) hz
    have b3 := area_bound (hall ⟨5, 0, -1, 0, 1⟩ (by simp [stepsHull])) hz
    simp only at b1 b2 b3
    refine ⟨f, hf, 1, one_pos, (one_mul _).symm, (one_mul _).symm, ?_⟩
    simp only [stepsHull, List.mem_cons, List.not_mem_nil, or_false] at hf
    rcases hf with rfl | rfl | rfl <;> simp only [val] at hv
    · refine ⟨(1, 10), (3, 10), ⟨rfl, rfl⟩, (z.1 - 1) / 2, by linarith, by linarith, ?_⟩
      ext <;> simp only <;> linarith
    · refine ⟨(3, 10), (1, 30), ⟨rfl, rfl⟩, (z.2 - 10) / 20, by linarith, by linarith, ?_⟩
      ext <;> simp only <;> linarith
    · refine ⟨(1, 30), (1, 10), ⟨rfl, rfl⟩, (30 - z.2) / 20, by linarith, by linarith, ?_⟩
      ext <;> simp only <;> linarith

/-- Deviation: when an edge of the area goes through the middle of the table, an operating point that is itself a sample
is moved, and costs twice what was sampled. -/
theorem C81_diagonal : ∃ g : Geometry, Promise g ∧ ∃ h pl, g.hull steps = .ok h ∧ Plane.make .ratePd h = .ok pl ∧
    ((1 : ℚ), (20 : ℚ), (10 : ℚ)) ∈ steps ∧ (∀ e, Blend steps (1, 20, e) → e = 10) ∧
    g.evaluate steps .ratePd pl 1 20 = some 20 := by
  obtain ⟨pl, hpl, hproj⟩ : ∃ pl, Plane.make .ratePd stepsHull = .ok pl ∧ pl.project .ratePd 1 20 = (2, 20) :=
    ⟨⟨⟨[(10, 1), (10, 3), (30, 1)], some 1, some 1⟩, ⟨[(1, 10), (1, 30), (3, 10)], some 10, some 10⟩,
      some ⟨[(10, 3), (30, 1)], some 3, some 0⟩⟩, by decide +kernel, by decide +kernel⟩
  refine ⟨oneHull steps stepsHull, oneHull_promise steps_hull, stepsHull, pl, by simp [oneHull], hpl, by decide +kernel,
    fun e he => ?_, ?_⟩
  · have := blend_ten (by decide +kernel) he
    simpa using this
  · unfold Geometry.evaluate
    rw [hproj, interp_ten (by decide +kernel) (.sample (by decide +kernel))]
    norm_num

/-- A table in which the highest rate is sampled at the highest discharge pressure. -/
def rising : Data := { isPower := true, energy := [10, 30, 20], rate := some [1, 3, 2], pd := some [2, 3, 1] }

@[inherit_doc rising] def risingHull : Hull :=
  ⟨[(1, 2), (3, 3), (2, 1)], [⟨0, 1, -1, 2, -3⟩, ⟨1, 2, 2, -1, -3⟩, ⟨2, 0, -1, -1, 3⟩]⟩

theorem rising_places : places rising .ratePd = [(1, 2), (3, 3), (2, 1)] := by decide +kernel

theorem rising_hull : IsHull (places rising .ratePd) risingHull := by
  have hp : places rising .ratePd = risingHull.points := rising_places
  have hall : ∀ f ∈ risingHull.facets, ∀ p ∈ risingHull.points, f.a * p.1 + f.b * p.2 ≤ -f.c := by decide +kernel
  rw [hp]
  refine ⟨rfl, fun z => ⟨fun hz f hf => ?_, fun hz => ?_⟩, ?_, ?_⟩
  · have := area_bound (hall f hf) hz
    unfold val; linarith
  · simp only [risingHull, List.forall_mem_cons, val] at hz
    obtain ⟨h1, h2, h3, -⟩ := hz
    refine tri (A := (1, 2)) (B := (3, 3)) (C := (2, 1)) (u := (3 - 2 * z.1 + z.2) / 3) (v := (z.1 + z.2 - 3) / 3)
      (w := (3 + z.1 - 2 * z.2) / 3) (by simp [risingHull]) (by simp [risingHull]) (by simp [risingHull]) (by linarith)
      (by linarith) (by linarith) (by ring) ?_
    ext <;> simp only <;> ring
  · intro f hf
    simp only [risingHull, List.mem_cons, List.not_mem_nil, or_false] at hf
    rcases hf with rfl | rfl | rfl
    · exact ⟨(1, 2), (3, 3), ⟨rfl, rfl⟩, by decide +kernel⟩
    · exact ⟨(3, 3), (2, 1), ⟨rfl, rfl⟩, by decide +kernel⟩
    · exact ⟨(2, 1), (1, 2), ⟨rfl, rfl⟩, by decide +kernel⟩
  · intro f hf z hz hv
    have b1 := area_bound (hall ⟨0, 1, -1, 2, -3⟩ (by simp [risingHull])) hz
    have b2 := area_bound (hall ⟨1, 2, 2, -1, -3⟩ (by simp [risingHull])) hz
    have b3 := area_bound (hall ⟨2, 0, -1, -1, 3⟩ (by simp [risingHull])) hz
    simp only at b1 b2 b3
    refine ⟨f, hf, 1, one_pos, (one_mul _).symm, (one_mul _).symm, ?_⟩
    simp only [risingHull, List.mem_cons, List.not_mem_nil, or_false] at hf
    rcases hf with rfl | rfl | rfl <;> simp only [val] at hv
    · refine ⟨(1, 2), (3, 3), ⟨rfl, rfl⟩, z.2 - 2, by linarith, by linarith, ?_⟩
      ext <;> simp only <;> linarith
    · refine ⟨(3, 3), (2, 1), ⟨rfl, rfl⟩, 3 - z.1, by linarith, by linarith, ?_⟩
      ext <;> simp only <;> linarith
    · refine ⟨(2, 1), (1, 2), ⟨rfl, rfl⟩, z.2 - 1, by linarith, by linarith, ?_⟩
      ext <;> simp only <;> linarith

theorem rising_sound : C80.Sound rising := (C80.sound_iff _).2 ⟨by decide +kernel, by decide +kernel, by decide +kernel⟩

theorem rising_pair : Pair rising .ratePd := by
  intro v
  rw [← C80.mem_varying rising_sound]
  cases v <;> decide +kernel

theorem rising_round : Round (places rising .ratePd) := by
  rw [rising_places]
  intro m hm a b hab
  have : Middle [((1 : ℚ), (2 : ℚ)), (3, 3), (2, 1)] (2, 2) :=
    ⟨(1, 2), by simp, (3, 3), by simp, (2, 1), by simp, (3, 3), by simp, by decide +kernel, by norm_num⟩
  rw [middle_unique hm this]
  by_contra hc
  push Not at hc
  have h1 := hc (1, 2) (by simp)
  have h2 := hc (3, 3) (by simp)
  have h3 := hc (2, 1) (by simp)
  norm_num at h1 h2 h3
  have ha : a = 0 := by linarith
  have hb : b = 0 := by linarith
  tauto

example : rising.create ((oneHull (samples rising .ratePd) risingHull).engine noThree) = .error .indexError :=
  C81_corner _ (oneHull_promise rising_hull) noThree rising rising_sound .ratePd (by simp) rising_pair rising_round
    risingHull (by simp [oneHull]) (3, 3) (by decide +kernel) (by
      rw [rising_places]
      intro q hq hne
      simp only [List.mem_cons, List.not_mem_nil, or_false] at hq
      rcases hq with rfl | rfl | rfl
      · simp only [Serves]; norm_num
      · exact absurd rfl hne
      · simp only [Serves]; norm_num)

end Verif.C81
