import Mathlib.Tactic.Linarith
import Mathlib.Tactic.NormNum
import Mathlib.Tactic.Ring
import Mathlib.Tactic.FieldSimp
import Mathlib.Tactic.LinearCombination
import Verif.Model.Spatial
import Verif.Props.C81

/-!
# C101: the limits of a sampled space

The limits that are read off the hull of a three-dimensional table are the extreme values of the space between the
sampled points.
-/

namespace Verif.C101
open Verif.Rates Verif.Sampled Verif.Spatial

/-! ## Specification -/

/-- The space between the sampled points: the points and everything on a straight line between two points of it. -/
inductive Solid (pts : List P3) : P3 → Prop
  | sample {p} (h : p ∈ pts) : Solid pts p
  | mix {p q} (k : ℚ) (h0 : 0 ≤ k) (h1 : k ≤ 1) (hp : Solid pts p) (hq : Solid pts q) :
      Solid pts ⟨(1 - k) * p.r + k * q.r, (1 - k) * p.s + k * q.s, (1 - k) * p.d + k * q.d⟩

/-- The point with the value `x` along an axis and the values `w` along the others. -/
def place : Var → ℚ → ℚ × ℚ → P3
  | .rate, x, w => ⟨x, w.1, w.2⟩
  | .ps, x, w => ⟨w.1, x, w.2⟩
  | .pd, x, w => ⟨w.1, w.2, x⟩

/-- A point of the triangle between three points of a plane. -/
def Within (a b c z : ℚ × ℚ) : Prop :=
  ∃ i j k : ℚ, 0 ≤ i ∧ 0 ≤ j ∧ 0 ≤ k ∧ i + j + k = 1 ∧ z = (i * a.1 + j * b.1 + k * c.1, i * a.2 + j * b.2 + k * c.2)

/-- A point of the triangle between three points of the space. -/
def Within3 (a b c z : P3) : Prop :=
  ∃ i j k : ℚ, 0 ≤ i ∧ 0 ≤ j ∧ 0 ≤ k ∧ i + j + k = 1 ∧
    z = ⟨i * a.r + j * b.r + k * c.r, i * a.s + j * b.s + k * c.s, i * a.d + j * b.d + k * c.d⟩

/-- Three points of a plane on one line. -/
def Collinear (a b c : ℚ × ℚ) : Prop := (b.1 - a.1) * (c.2 - a.2) = (b.2 - a.2) * (c.1 - a.1)

/-- The left side of a facet's inequality. -/
def val (f : Facet) (z : P3) : ℚ := f.a * z.r + f.b * z.s + f.c * z.d + f.e

/-- The three points of a facet. -/
def Corners (h : Hull) (f : Facet) (p q t : P3) : Prop :=
  h.points[f.i]? = some p ∧ h.points[f.j]? = some q ∧ h.points[f.k]? = some t

/-- The normal of the facet is perpendicular to its triangle, which is not flat. -/
def Upright (f : Facet) (p q t : P3) : Prop :=
  ∃ m : ℚ, m ≠ 0 ∧
    f.a = m * ((q.s - p.s) * (t.d - p.d) - (q.d - p.d) * (t.s - p.s)) ∧
    f.b = m * ((q.d - p.d) * (t.r - p.r) - (q.r - p.r) * (t.d - p.d)) ∧
    f.c = m * ((q.r - p.r) * (t.s - p.s) - (q.s - p.s) * (t.r - p.r))

/-- What `scipy.spatial.ConvexHull` promises: the facets bound the space between the points, each is a triangle of three
points, and where the space touches the plane of a facet there is a facet in the same direction. -/
structure IsHull (pts : List P3) (h : Hull) : Prop where
  points : h.points = pts
  solid : ∀ z, Solid pts z ↔ ∀ f ∈ h.facets, val f z ≤ 0
  corners : ∀ f ∈ h.facets, ∃ p q t, Corners h f p q t ∧ val f p = 0 ∧ val f q = 0 ∧ val f t = 0 ∧ Upright f p q t
  faces : ∀ f ∈ h.facets, ∀ z, Solid pts z → val f z = 0 → ∃ g ∈ h.facets,
    ∃ m : ℚ, 0 < m ∧ g.a = m * f.a ∧ g.b = m * f.b ∧ g.c = m * f.c ∧ ∃ p q t, Corners h g p q t ∧ Within3 p q t z

/-- The middle of the smallest box around the points. -/
def Middle (pts : List P3) (m : P3) : Prop :=
  ∀ ax, ∃ l ∈ pts, ∃ u ∈ pts, (∀ p ∈ pts, l.coord ax ≤ p.coord ax ∧ p.coord ax ≤ u.coord ax) ∧
    m.coord ax = (u.coord ax + l.coord ax) / 2

/-- The middle is not on the surface: on both sides of every plane through it there are samples. -/
def Round (pts : List P3) : Prop :=
  ∀ m, Middle pts m → ∀ a b c : ℚ, (a ≠ 0 ∨ b ≠ 0 ∨ c ≠ 0) →
    ∃ p ∈ pts, 0 < a * (p.r - m.r) + b * (p.s - m.s) + c * (p.d - m.d)

/-- The smallest value along an axis among the points of the space with the other values `w`. -/
def Smallest (pts : List P3) (ax : Var) (w : ℚ × ℚ) (x : ℚ) : Prop :=
  Solid pts (place ax x w) ∧ ∀ y, Solid pts (place ax y w) → x ≤ y

/-- The largest value along an axis among the points of the space with the other values `w`. -/
def Largest (pts : List P3) (ax : Var) (w : ℚ × ℚ) (x : ℚ) : Prop :=
  Solid pts (place ax x w) ∧ ∀ y, Solid pts (place ax y w) → y ≤ x

/-! ## Triangles -/

/-- **C101**: a point counts as inside a triangle exactly if it is between its corners. -/
theorem C101_inside (z a b c : ℚ × ℚ) (hc : ¬ Collinear a b c) : isInside z a b c = true ↔ Within a b c z := by
  unfold Collinear at hc
  set D := (b.1 - a.1) * (c.2 - a.2) - (b.2 - a.2) * (c.1 - a.1) with hD
  have hD0 : D ≠ 0 := fun h => hc (by linarith)
  have hDD : 0 < D * D := mul_self_pos.2 hD0
  set x := (c.1 - b.1) * (z.2 - b.2) - (c.2 - b.2) * (z.1 - b.1) with hx
  set y := (z.1 - a.1) * (c.2 - a.2) - (z.2 - a.2) * (c.1 - a.1) with hy
  set w := (b.1 - a.1) * (z.2 - a.2) - (b.2 - a.2) * (z.1 - a.1) with hw
  have e1 : checkSide z (diff c b) (diff a b) b = x * D := by simp only [checkSide, cross, diff, hx, hD]; ring
  have e2 : checkSide z (diff c a) (diff b a) a = y * D := by simp only [checkSide, cross, diff, hy, hD]; ring
  have e3 : checkSide z (diff b a) (diff c a) a = w * D := by simp only [checkSide, cross, diff, hw, hD]
  unfold isInside
  rw [e1, e2, e3]
  simp only [Bool.and_eq_true, Bool.not_eq_true', decide_eq_false_iff_not, not_lt]
  constructor
  · rintro ⟨⟨h1, h2⟩, h3⟩
    refine ⟨x / D, y / D, w / D, ?_, ?_, ?_, ?_, Prod.ext ?_ ?_⟩
    · rw [← mul_div_mul_right _ _ hD0]; exact div_nonneg h1 hDD.le
    · rw [← mul_div_mul_right _ _ hD0]; exact div_nonneg h2 hDD.le
    · rw [← mul_div_mul_right _ _ hD0]; exact div_nonneg h3 hDD.le
    · field_simp
      rw [hx, hy, hw, hD]; ring
    · field_simp
      rw [hx, hy, hw, hD]; ring
    · field_simp
      rw [hx, hy, hw, hD]; ring
  · rintro ⟨i, j, k, hi, hj, hk, hs, rfl⟩
    have f1 : x = i * D := by rw [hx, hD]; simp only; have : i = 1 - j - k := by linarith
                              subst this; ring
    have f2 : y = j * D := by rw [hy, hD]; simp only; have : i = 1 - j - k := by linarith
                              subst this; ring
    have f3 : w = k * D := by rw [hw, hD]; simp only; have : i = 1 - j - k := by linarith
                              subst this; ring
    rw [f1, f2, f3]
    refine ⟨⟨?_, ?_⟩, ?_⟩
    · have := mul_nonneg hi hDD.le; linarith
    · have := mul_nonneg hj hDD.le; linarith
    · have := mul_nonneg hk hDD.le; linarith

/-- A point that is in the triangle with corners (0, 0), (4, 0), (0, 4), and one that is not. -/
example : isInside (1, 2) (0, 0) (4, 0) (0, 4) = true ∧ isInside (3, 2) (0, 0) (4, 0) (0, 4) = false := by decide +kernel

/-- **C101** (finding): if the corners of a triangle are on one line, every point counts as inside. -/
theorem C101_collinear (z a b c : ℚ × ℚ) (hc : Collinear a b c) : isInside z a b c = true := by
  unfold Collinear at hc
  have e1 : checkSide z (diff c b) (diff a b) b = 0 := by
    simp only [checkSide, cross, diff]
    have : (c.1 - b.1) * (a.2 - b.2) - (c.2 - b.2) * (a.1 - b.1) = 0 := by linarith
    rw [this, mul_zero]
  have e2 : checkSide z (diff c a) (diff b a) a = 0 := by
    simp only [checkSide, cross, diff]
    have : (c.1 - a.1) * (b.2 - a.2) - (c.2 - a.2) * (b.1 - a.1) = 0 := by linarith
    rw [this, mul_zero]
  have e3 : checkSide z (diff b a) (diff c a) a = 0 := by
    simp only [checkSide, cross, diff]
    have : (b.1 - a.1) * (c.2 - a.2) - (b.2 - a.2) * (c.1 - a.1) = 0 := by linarith
    rw [this, mul_zero]
  simp [isInside, e1, e2, e3]

example : isInside (100, -7) (0, 0) (1, 1) (2, 2) = true := C101_collinear _ _ _ _ (by unfold Collinear; norm_num)

/-- The plane of a simplex goes through its nodes. -/
def Through (x : Simplex) : Prop :=
  x.u * x.p.1 + x.v * x.p.2.1 + x.w * x.p.2.2 + x.e = 0 ∧ x.u * x.q.1 + x.v * x.q.2.1 + x.w * x.q.2.2 + x.e = 0 ∧
    x.u * x.t.1 + x.v * x.t.2.1 + x.w * x.t.2.2 + x.e = 0

/-- **C101**: between the nodes of a simplex the value is the same blend of the values at the nodes. -/
theorem C101_blend (x : Simplex) (hx : Through x) (hw : x.w ≠ 0) (i j k : ℚ) (h : i + j + k = 1) :
    x.at (i * x.p.1 + j * x.q.1 + k * x.t.1, i * x.p.2.1 + j * x.q.2.1 + k * x.t.2.1) =
      some (i * x.p.2.2 + j * x.q.2.2 + k * x.t.2.2) := by
  obtain ⟨h1, h2, h3⟩ := hx
  unfold Simplex.at
  rw [if_neg hw]
  congr 1
  field_simp
  linear_combination (-i) * h1 - j * h2 - k * h3 + x.e * h

example : (Simplex.mk (0, 0, 1) (2, 0, 3) (0, 2, 5) 1 2 (-1) 1).at (1 / 2, 1) = some (7 / 2) := by
  have := C101_blend (Simplex.mk (0, 0, 1) (2, 0, 3) (0, 2, 5) 1 2 (-1) 1)
    (by unfold Through; norm_num) (by norm_num) (1 / 4) (1 / 4) (1 / 2) (by norm_num)
  norm_num at this
  exact this

/-! ## The space -/

theorem solid_tri {pts : List P3} {p q t z : P3} (hp : Solid pts p) (hq : Solid pts q) (ht : Solid pts t)
    (hz : Within3 p q t z) : Solid pts z := by
  obtain ⟨i, j, k, hi, hj, hk, hs, rfl⟩ := hz
  rcases eq_or_lt_of_le (add_nonneg hj hk) with e | hpos
  · have hj0 : j = 0 := by linarith
    have hk0 : k = 0 := by linarith
    have hi1 : i = 1 := by linarith
    subst hj0 hk0 hi1
    simpa using hp
  · have h1 := Solid.mix (k / (j + k)) (div_nonneg hk hpos.le) ((div_le_one hpos).2 (by linarith)) hq ht
    have h2 := Solid.mix (j + k) hpos.le (by linarith) hp h1
    have e : ∀ a b c : ℚ, (1 - (j + k)) * a + (j + k) * ((1 - k / (j + k)) * b + k / (j + k) * c) =
        i * a + j * b + k * c := by
      intro a b c
      have : i = 1 - (j + k) := by linarith
      rw [this]; field_simp; ring
    simp only [e] at h2
    exact h2

theorem solid_bound {pts : List P3} {a b c e : ℚ} (h : ∀ p ∈ pts, a * p.r + b * p.s + c * p.d ≤ e) {z : P3}
    (hz : Solid pts z) : a * z.r + b * z.s + c * z.d ≤ e := by
  induction hz with
  | sample hp => exact h _ hp
  | @mix p q k h0 h1 _ _ ih1 ih2 =>
    have e' : a * ((1 - k) * p.r + k * q.r) + b * ((1 - k) * p.s + k * q.s) + c * ((1 - k) * p.d + k * q.d) =
      (1 - k) * (a * p.r + b * p.s + c * p.d) + k * (a * q.r + b * q.s + c * q.d) := by ring
    simp only
    rw [e']
    nlinarith

theorem exists_bound (pts : List P3) (a b c : ℚ) : ∃ e, ∀ p ∈ pts, a * p.r + b * p.s + c * p.d ≤ e := by
  induction pts with
  | nil => exact ⟨0, by simp⟩
  | cons p l ih =>
    obtain ⟨e, he⟩ := ih
    refine ⟨max e (a * p.r + b * p.s + c * p.d), fun q hq => ?_⟩
    rcases List.mem_cons.1 hq with rfl | hq
    · exact le_max_right _ _
    · exact (he q hq).trans (le_max_left _ _)

theorem coord_bound (pts : List P3) (s : ℚ) (ax : Var) : ∃ e, ∀ z, Solid pts z → s * z.coord ax ≤ e := by
  cases ax with
  | rate =>
    obtain ⟨e, he⟩ := exists_bound pts s 0 0
    exact ⟨e, fun z hz => by have := solid_bound he hz; simp only [P3.coord]; linarith⟩
  | ps =>
    obtain ⟨e, he⟩ := exists_bound pts 0 s 0
    exact ⟨e, fun z hz => by have := solid_bound he hz; simp only [P3.coord]; linarith⟩
  | pd =>
    obtain ⟨e, he⟩ := exists_bound pts 0 0 s
    exact ⟨e, fun z hz => by have := solid_bound he hz; simp only [P3.coord]; linarith⟩

/-- The other two coordinates. -/
def rest (ax : Var) (z : P3) : ℚ × ℚ := (z.coord (others ax).1, z.coord (others ax).2)

@[simp] theorem coord_place (ax : Var) (x : ℚ) (w : ℚ × ℚ) : (place ax x w).coord ax = x := by cases ax <;> rfl
@[simp] theorem coord_place_fst (ax : Var) (x : ℚ) (w : ℚ × ℚ) : (place ax x w).coord (others ax).1 = w.1 := by cases ax <;> rfl
@[simp] theorem coord_place_snd (ax : Var) (x : ℚ) (w : ℚ × ℚ) : (place ax x w).coord (others ax).2 = w.2 := by cases ax <;> rfl
@[simp] theorem rest_place (ax : Var) (x : ℚ) (w : ℚ × ℚ) : rest ax (place ax x w) = w := by cases ax <;> rfl
theorem place_rest (ax : Var) (z : P3) : place ax (z.coord ax) (rest ax z) = z := by cases ax <;> rfl

theorem val_eq (ax : Var) (f : Facet) (z : P3) :
    val f z = f.normal (others ax).1 * (rest ax z).1 + f.normal (others ax).2 * (rest ax z).2 + f.normal ax * z.coord ax + f.e := by
  cases ax <;> simp only [val, rest, others, Facet.normal, P3.coord] <;> ring

theorem val_place (ax : Var) (f : Facet) (x : ℚ) (w : ℚ × ℚ) :
    val f (place ax x w) = f.normal (others ax).1 * w.1 + f.normal (others ax).2 * w.2 + f.normal ax * x + f.e := by
  rw [val_eq ax, rest_place, coord_place]

theorem normal_scale {f g : Facet} {m : ℚ} (ha : g.a = m * f.a) (hb : g.b = m * f.b) (hc : g.c = m * f.c) (ax : Var) :
    g.normal ax = m * f.normal ax := by cases ax <;> simpa [Facet.normal]

section
variable {pts : List P3} {h : Hull}

/-- A point on the plane of a facet that faces outwards along the axis is extreme. -/
theorem extreme (hh : IsHull pts h) {ax : Var} {s : ℚ} (hs : s = 1 ∨ s = -1) {f : Facet} (hf : f ∈ h.facets)
    (hn : s * f.normal ax < 0) {w : ℚ × ℚ} {x y : ℚ} (hx : val f (place ax x w) = 0) (hy : Solid pts (place ax y w)) :
    s * x ≤ s * y := by
  have h1 := (hh.solid _).1 hy f hf
  rw [val_place] at hx h1
  rcases hs with rfl | rfl <;> nlinarith

/-- Where there are points of the space, there is an extreme one, and it lies on a facet that faces outwards. -/
theorem tight (hh : IsHull pts h) {ax : Var} {s : ℚ} (hs : s = 1 ∨ s = -1) {w : ℚ × ℚ} {y : ℚ}
    (hw : Solid pts (place ax y w)) :
    ∃ x, Solid pts (place ax x w) ∧ ∃ f ∈ h.facets, s * f.normal ax < 0 ∧ val f (place ax x w) = 0 := by
  have hss : s * s = 1 := by rcases hs with rfl | rfl <;> norm_num
  set fs := h.facets.filter fun f => decide (s * f.normal ax < 0) with hfs
  have mem : ∀ f, f ∈ fs ↔ f ∈ h.facets ∧ s * f.normal ax < 0 := by intro f; simp [hfs]
  have hne : fs ≠ [] := by
    intro he
    have hno : ∀ f ∈ h.facets, 0 ≤ s * f.normal ax := by
      intro f hf
      by_contra hc
      have := (mem f).2 ⟨hf, not_le.1 hc⟩
      rw [he] at this; cases this
    obtain ⟨c, hc⟩ := coord_bound pts (-s) ax
    have h1 := hc _ hw
    rw [coord_place] at h1
    have := hc (place ax (y - s * (c + s * y + 1)) w) ((hh.solid _).2 fun f hf => by
      have h2 := (hh.solid _).1 hw f hf
      have h3 := hno f hf
      rw [val_place] at h2 ⊢
      have h4 : 0 ≤ (s * f.normal ax) * (c + s * y + 1) := mul_nonneg h3 (by linarith)
      nlinarith)
    rw [coord_place] at this
    have e : -s * (y - s * (c + s * y + 1)) = c + 1 := by linear_combination (c + s * y + 1) * hss
    linarith
  obtain ⟨f, hf, hm⟩ := C81.exists_greatest (fun f : Facet =>
    s * (-(f.e + f.normal (others ax).1 * w.1 + f.normal (others ax).2 * w.2) / f.normal ax)) hne
  have hfn := ((mem f).1 hf).2
  have hn0 : f.normal ax ≠ 0 := by rintro e; rw [e] at hfn; simp at hfn
  set v := -(f.e + f.normal (others ax).1 * w.1 + f.normal (others ax).2 * w.2) / f.normal ax with hv
  have hfv : f.normal ax * v = -(f.e + f.normal (others ax).1 * w.1 + f.normal (others ax).2 * w.2) := by
    rw [hv]; field_simp
  have hvw : s * v ≤ s * y := by
    have h2 := (hh.solid _).1 hw f ((mem f).1 hf).1
    rw [val_place] at h2
    rcases hs with e | e <;> subst e <;> nlinarith
  refine ⟨v, (hh.solid _).2 fun g hg => ?_, f, ((mem f).1 hf).1, hfn, ?_⟩
  · have h2 := (hh.solid _).1 hw g hg
    rw [val_place] at h2 ⊢
    by_cases hgn : s * g.normal ax < 0
    · have h3 := hm g ((mem g).2 ⟨hg, hgn⟩)
      have hg0 : g.normal ax ≠ 0 := by rintro e; rw [e] at hgn; simp at hgn
      set u := -(g.e + g.normal (others ax).1 * w.1 + g.normal (others ax).2 * w.2) / g.normal ax with hu
      have hgu : g.normal ax * u = -(g.e + g.normal (others ax).1 * w.1 + g.normal (others ax).2 * w.2) := by
        rw [hu]; field_simp
      rcases hs with e | e <;> subst e <;> nlinarith
    · have h3 : 0 ≤ s * g.normal ax := not_lt.1 hgn
      have h4 : 0 ≤ (s * g.normal ax) * (s * y - s * v) := mul_nonneg h3 (by linarith)
      have e : (s * g.normal ax) * (s * y - s * v) = g.normal ax * (y - v) := by
        linear_combination g.normal ax * (y - v) * hss
      rw [e] at h4
      linarith
  · rw [val_place]
    linarith

/-! ## The simplices of a half of the hull -/

theorem getElem?_filterMap {α : Type} (pts : List α) : ∀ (l : List Nat) (j : Nat), (∀ n ∈ l, n < pts.length) →
    (l.filterMap (pts[·]?))[j]? = l[j]?.bind (pts[·]?)
  | [], j, _ => by simp
  | n :: l, j, hl => by
    have hn : n < pts.length := hl n (by simp)
    have e : pts[n]? = some pts[n] := List.getElem?_eq_getElem hn
    rw [List.filterMap_cons, e]
    cases j with
    | zero => simp [e]
    | succ j =>
      simp only [List.getElem?_cons_succ]
      exact getElem?_filterMap pts l j fun n hn => hl n (List.mem_cons_of_mem _ hn)

theorem mem_indicesOf {fs : List Facet} {n : Nat} :
    n ∈ h.indicesOf fs ↔ n < h.points.length ∧ ∃ f ∈ fs, f.i = n ∨ f.j = n ∨ f.k = n := by
  unfold Hull.indicesOf
  simp only [List.mem_filter, List.mem_range, List.any_eq_true, Bool.or_eq_true, beq_iff_eq, or_assoc]

theorem node_eq {fs : List Facet} {f : Facet} (hf : f ∈ fs) {n : Nat} (hn : f.i = n ∨ f.j = n ∨ f.k = n) {p : P3}
    (hp : h.points[n]? = some p) : h.node fs n = some p := by
  have hm : n ∈ h.indicesOf fs := mem_indicesOf.2 ⟨(List.getElem?_eq_some_iff.1 hp).1, f, hf, hn⟩
  unfold Hull.node Hull.pointsOf
  cases hidx : (h.indicesOf fs).idxOf? n with
  | none => exact absurd hm (by simpa using hidx)
  | some j =>
    have hj := List.findIdx?_eq_some_iff_getElem.1 hidx
    obtain ⟨hlt, hj, -⟩ := hj
    rw [Option.bind_some, getElem?_filterMap _ _ _ fun n hn => (mem_indicesOf.1 hn).1, List.getElem?_eq_getElem hlt,
      Option.bind_some]
    rw [beq_iff_eq.1 hj, hp]

theorem mem_pointsOf {fs : List Facet} {p : P3} :
    p ∈ h.pointsOf fs ↔ ∃ f ∈ fs, h.points[f.i]? = some p ∨ h.points[f.j]? = some p ∨ h.points[f.k]? = some p := by
  unfold Hull.pointsOf
  simp only [List.mem_filterMap, mem_indicesOf]
  constructor
  · rintro ⟨n, ⟨-, f, hf, rfl | rfl | rfl⟩, hk⟩
    · exact ⟨f, hf, .inl hk⟩
    · exact ⟨f, hf, .inr (.inl hk)⟩
    · exact ⟨f, hf, .inr (.inr hk)⟩
  · rintro ⟨f, hf, hk | hk | hk⟩
    · exact ⟨f.i, ⟨(List.getElem?_eq_some_iff.1 hk).1, f, hf, .inl rfl⟩, hk⟩
    · exact ⟨f.j, ⟨(List.getElem?_eq_some_iff.1 hk).1, f, hf, .inr (.inl rfl)⟩, hk⟩
    · exact ⟨f.k, ⟨(List.getElem?_eq_some_iff.1 hk).1, f, hf, .inr (.inr rfl)⟩, hk⟩

/-- The simplex of a facet. -/
def simplexOf (ax : Var) (f : Facet) (p q t : P3) : Simplex :=
  ⟨row ax p, row ax q, row ax t, f.normal (others ax).1, f.normal (others ax).2, f.normal ax, f.e⟩

theorem mem_simplices {fs : List Facet} {ax : Var} (hfs : ∀ f ∈ fs, ∃ p q t, Corners h f p q t) {x : Simplex} :
    x ∈ h.simplices ax fs ↔ ∃ f ∈ fs, ∃ p q t, Corners h f p q t ∧ x = simplexOf ax f p q t := by
  unfold Hull.simplices
  rw [List.mem_filterMap]
  constructor
  · rintro ⟨f, hf, hx⟩
    obtain ⟨p, q, t, c⟩ := hfs f hf
    rw [node_eq hf (.inl rfl) c.1, node_eq hf (.inr (.inl rfl)) c.2.1, node_eq hf (.inr (.inr rfl)) c.2.2] at hx
    exact ⟨f, hf, p, q, t, c, (Option.some.inj hx).symm⟩
  · rintro ⟨f, hf, p, q, t, c, rfl⟩
    refine ⟨f, hf, ?_⟩
    rw [node_eq hf (.inl rfl) c.1, node_eq hf (.inr (.inl rfl)) c.2.1, node_eq hf (.inr (.inr rfl)) c.2.2]
    rfl

theorem vars_row (ax : Var) (p : P3) : vars (row ax p) = rest ax p := by cases ax <;> rfl

theorem not_collinear {f : Facet} {p q t : P3} (hu : Upright f p q t) {ax : Var} (hn : f.normal ax ≠ 0) :
    ¬ Collinear (rest ax p) (rest ax q) (rest ax t) := by
  obtain ⟨m, -, ha, hb, hc⟩ := hu
  intro hcol
  apply hn
  unfold Collinear at hcol
  cases ax with
  | rate => simp only [Facet.normal, rest, others, P3.coord] at hcol ⊢; rw [ha]; linear_combination m * hcol
  | ps => simp only [Facet.normal, rest, others, P3.coord] at hcol ⊢; rw [hb]; linear_combination (-m) * hcol
  | pd => simp only [Facet.normal, rest, others, P3.coord] at hcol ⊢; rw [hc]; linear_combination m * hcol

theorem within_iff (ax : Var) (p q t : P3) (w : ℚ × ℚ) :
    Within (rest ax p) (rest ax q) (rest ax t) w ↔ ∃ x, Within3 p q t (place ax x w) := by
  constructor
  · rintro ⟨i, j, k, hi, hj, hk, hs, rfl⟩
    refine ⟨i * p.coord ax + j * q.coord ax + k * t.coord ax, i, j, k, hi, hj, hk, hs, ?_⟩
    cases ax <;> rfl
  · rintro ⟨x, i, j, k, hi, hj, hk, hs, e⟩
    refine ⟨i, j, k, hi, hj, hk, hs, ?_⟩
    have := congrArg (rest ax) e
    rw [rest_place] at this
    rw [this]
    cases ax <;> rfl

theorem val_within {f : Facet} {p q t z : P3} (hp : val f p = 0) (hq : val f q = 0) (ht : val f t = 0)
    (hz : Within3 p q t z) : val f z = 0 := by
  obtain ⟨i, j, k, -, -, -, hs, rfl⟩ := hz
  unfold val at *
  simp only
  linear_combination i * hp + j * hq + k * ht - f.e * hs

theorem at_simplexOf {ax : Var} {f : Facet} (hn : f.normal ax ≠ 0) (p q t : P3) (w : ℚ × ℚ) (x : ℚ) :
    (simplexOf ax f p q t).at w = some x ↔ val f (place ax x w) = 0 := by
  unfold Simplex.at simplexOf
  rw [if_neg hn, val_place, Option.some.injEq]
  constructor
  · rintro rfl
    field_simp
    ring
  · intro e
    field_simp
    linarith

theorem onSimplices_acc (z : ℚ × ℚ) : ∀ (xs : List Simplex) (acc : Fl),
    let r := xs.foldl (fun acc x => if isInside z (vars x.p) (vars x.q) (vars x.t) then x.at z else acc) acc
    (r = acc ∧ ∀ x ∈ xs, isInside z (vars x.p) (vars x.q) (vars x.t) = false) ∨
      ∃ x ∈ xs, isInside z (vars x.p) (vars x.q) (vars x.t) = true ∧ r = x.at z
  | [], acc => .inl ⟨rfl, by simp⟩
  | x :: xs, acc => by
    simp only [List.foldl_cons]
    rcases onSimplices_acc z xs (if isInside z (vars x.p) (vars x.q) (vars x.t) then x.at z else acc) with ⟨h1, h2⟩ | ⟨y, hy, h1, h2⟩
    · cases hx : isInside z (vars x.p) (vars x.q) (vars x.t) with
      | true =>
        refine .inr ⟨x, by simp, hx, ?_⟩
        rw [hx, if_pos rfl] at h1
        simpa using h1
      | false =>
        refine .inl ⟨?_, ?_⟩
        · rw [hx] at h1
          simpa using h1
        · intro y hy
          rcases List.mem_cons.1 hy with rfl | hy
          · exact hx
          · exact h2 y hy
    · exact .inr ⟨y, List.mem_cons_of_mem _ hy, h1, h2⟩

theorem onSimplices_cases (xs : List Simplex) (z : ℚ × ℚ) :
    (onSimplices xs z = none ∧ ∀ x ∈ xs, isInside z (vars x.p) (vars x.q) (vars x.t) = false) ∨
      ∃ x ∈ xs, isInside z (vars x.p) (vars x.q) (vars x.t) = true ∧ onSimplices xs z = x.at z :=
  onSimplices_acc z xs none

/-- What a simplex of a facet says about a point inside it. -/
theorem facet_spec (hh : IsHull pts h) {ax : Var} {f : Facet} (hf : f ∈ h.facets) (hn : f.normal ax ≠ 0) {p q t : P3}
    (hc : Corners h f p q t) (w : ℚ × ℚ) :
    isInside w (vars (simplexOf ax f p q t).p) (vars (simplexOf ax f p q t).q) (vars (simplexOf ax f p q t).t) = true ↔
      ∃ x, (simplexOf ax f p q t).at w = some x ∧ Within3 p q t (place ax x w) ∧ Solid pts (place ax x w) ∧
        val f (place ax x w) = 0 := by
  obtain ⟨p', q', t', c', vp, vq, vt, hu⟩ := hh.corners f hf
  obtain ⟨c1, c2, c3⟩ := hc
  obtain ⟨d1, d2, d3⟩ := c'
  rw [c1] at d1; rw [c2] at d2; rw [c3] at d3
  cases d1; cases d2; cases d3
  show isInside w (vars (row ax p)) (vars (row ax q)) (vars (row ax t)) = true ↔ _
  rw [vars_row, vars_row, vars_row, C101_inside _ _ _ _ (not_collinear hu hn), within_iff]
  have mp : Solid pts p := .sample (hh.points ▸ List.mem_of_getElem? c1)
  have mq : Solid pts q := .sample (hh.points ▸ List.mem_of_getElem? c2)
  have mt : Solid pts t := .sample (hh.points ▸ List.mem_of_getElem? c3)
  constructor
  · rintro ⟨x, hx⟩
    exact ⟨x, (at_simplexOf hn p q t w x).2 (val_within vp vq vt hx), hx, solid_tri mp mq mt hx, val_within vp vq vt hx⟩
  · rintro ⟨x, -, hx, -⟩
    exact ⟨x, hx⟩

theorem corners_of (hh : IsHull pts h) {fs : List Facet} (hs : ∀ f ∈ fs, f ∈ h.facets) :
    ∀ f ∈ fs, ∃ p q t, Corners h f p q t := by
  intro f hf
  obtain ⟨p, q, t, c, -⟩ := hh.corners f (hs f hf)
  exact ⟨p, q, t, c⟩

/-- A value on some of the facets is the height of a point of the space on one of them. -/
theorem on_facet (hh : IsHull pts h) {ax : Var} {fs : List Facet} (hfs : ∀ f ∈ fs, f ∈ h.facets ∧ f.normal ax ≠ 0)
    {w : ℚ × ℚ} {x : ℚ} (hx : onSimplices (h.simplices ax fs) w = some x) :
    ∃ f ∈ fs, ∃ p q t, Corners h f p q t ∧ Within3 p q t (place ax x w) ∧ Solid pts (place ax x w) ∧
      val f (place ax x w) = 0 := by
  rcases onSimplices_cases (h.simplices ax fs) w with ⟨h1, -⟩ | ⟨y, hy, h1, h2⟩
  · rw [h1] at hx; cases hx
  · obtain ⟨f, hf, p, q, t, c, rfl⟩ := (mem_simplices (corners_of hh fun f hf => (hfs f hf).1)).1 hy
    obtain ⟨x', e, k1, k2, k3⟩ := (facet_spec hh (hfs f hf).1 (hfs f hf).2 c w).1 h1
    rw [hx, e] at h2
    cases h2
    exact ⟨f, hf, p, q, t, c, k1, k2, k3⟩

theorem ne_of_neg {s x : ℚ} (h : s * x < 0) : x ≠ 0 := by rintro rfl; simp at h

/-- The simplices that face one way along the axis give the extreme value. -/
theorem half_spec (hh : IsHull pts h) {fs : List Facet} {ax : Var} {s : ℚ} (hs : s = 1 ∨ s = -1)
    (hm : ∀ f, f ∈ fs ↔ f ∈ h.facets ∧ s * f.normal ax < 0) (w : ℚ × ℚ) (x : ℚ) :
    onSimplices (h.simplices ax fs) w = some x ↔
      Solid pts (place ax x w) ∧ ∀ y, Solid pts (place ax y w) → s * x ≤ s * y := by
  have hfs : ∀ f ∈ fs, f ∈ h.facets ∧ f.normal ax ≠ 0 := fun f hf => ⟨((hm f).1 hf).1, ne_of_neg ((hm f).1 hf).2⟩
  have fwd : ∀ x, onSimplices (h.simplices ax fs) w = some x →
      Solid pts (place ax x w) ∧ ∀ y, Solid pts (place ax y w) → s * x ≤ s * y := by
    intro x hx
    obtain ⟨f, hf, -, -, -, -, -, k2, k3⟩ := on_facet hh hfs hx
    exact ⟨k2, fun y hy => extreme hh hs ((hm f).1 hf).1 ((hm f).1 hf).2 k3 hy⟩
  refine ⟨fwd x, fun ⟨h1, h2⟩ => ?_⟩
  obtain ⟨x0, hx0, f, hf, hfn, hfv⟩ := tight hh hs h1
  obtain ⟨g, hg, m, hmp, ha, hb, hc, p, q, t, c, hin⟩ := hh.faces f hf _ hx0 hfv
  have hgn : s * g.normal ax < 0 := by rw [normal_scale ha hb hc]; nlinarith
  have hgfs : g ∈ fs := (hm g).2 ⟨hg, hgn⟩
  have hmem := (mem_simplices (ax := ax) (corners_of hh fun f hf => (hfs f hf).1)).2 ⟨g, hgfs, p, q, t, c, rfl⟩
  have hins : isInside w (vars (simplexOf ax g p q t).p) (vars (simplexOf ax g p q t).q) (vars (simplexOf ax g p q t).t) = true := by
    obtain ⟨p', q', t', ⟨d1, d2, d3⟩, vp, vq, vt, hu⟩ := hh.corners g hg
    obtain ⟨c1, c2, c3⟩ := c
    rw [c1] at d1; rw [c2] at d2; rw [c3] at d3
    cases d1; cases d2; cases d3
    show isInside w (vars (row ax p)) (vars (row ax q)) (vars (row ax t)) = true
    rw [vars_row, vars_row, vars_row, C101_inside _ _ _ _ (not_collinear hu (ne_of_neg hgn)), within_iff]
    exact ⟨x0, hin⟩
  rcases onSimplices_cases (h.simplices ax fs) w with ⟨-, e⟩ | ⟨y, hy, e1, e2⟩
  · rw [e _ hmem] at hins; cases hins
  · obtain ⟨f', hf', p', q', t', c', rfl⟩ := (mem_simplices (corners_of hh fun f hf => (hfs f hf).1)).1 hy
    obtain ⟨x', e, -⟩ := (facet_spec hh (hfs f' hf').1 (hfs f' hf').2 c' w).1 e1
    rw [e] at e2
    obtain ⟨k1, k2⟩ := fwd x' e2
    have l1 := k2 x h1
    have l2 := h2 x' k1
    have : x' = x := by rcases hs with rfl | rfl <;> linarith
    rw [e2, this]

/-! ## The halves of the hull -/

theorem maxBound_spec (hne : h.points ≠ []) (ax : Var) :
    (∃ p ∈ h.points, p.coord ax = h.maxBound ax) ∧ ∀ p ∈ h.points, p.coord ax ≤ h.maxBound ax := by
  unfold Hull.maxBound
  obtain ⟨h1, -, h3⟩ := C81.foldl_max (h.points.map (·.coord ax)) ((h.points.map (·.coord ax)).headD 0)
  refine ⟨?_, fun p hp => h3 _ (List.mem_map_of_mem hp)⟩
  rcases h1 with h1 | h1
  · rw [h1]
    cases hp : h.points with
    | nil => exact absurd hp hne
    | cons p l => exact ⟨p, by simp, rfl⟩
  · obtain ⟨p, hp, e⟩ := List.mem_map.1 h1
    exact ⟨p, hp, e⟩

theorem minBound_spec (hne : h.points ≠ []) (ax : Var) :
    (∃ p ∈ h.points, p.coord ax = h.minBound ax) ∧ ∀ p ∈ h.points, h.minBound ax ≤ p.coord ax := by
  unfold Hull.minBound
  obtain ⟨h1, -, h3⟩ := C81.foldl_min (h.points.map (·.coord ax)) ((h.points.map (·.coord ax)).headD 0)
  refine ⟨?_, fun p hp => h3 _ (List.mem_map_of_mem hp)⟩
  rcases h1 with h1 | h1
  · rw [h1]
    cases hp : h.points with
    | nil => exact absurd hp hne
    | cons p l => exact ⟨p, by simp, rfl⟩
  · obtain ⟨p, hp, e⟩ := List.mem_map.1 h1
    exact ⟨p, hp, e⟩

theorem centre_middle (hne : h.points ≠ []) : Middle h.points ⟨h.centre .rate, h.centre .ps, h.centre .pd⟩ := by
  intro ax
  obtain ⟨⟨u, hu, eu⟩, bu⟩ := maxBound_spec hne ax
  obtain ⟨⟨l, hl, el⟩, bl⟩ := minBound_spec hne ax
  refine ⟨l, hl, u, hu, fun p hp => ⟨el ▸ bl p hp, eu ▸ bu p hp⟩, ?_⟩
  rw [eu, el]
  cases ax <;> rfl

theorem centre_strict (hh : IsHull pts h) (hr : Round pts) {f : Facet} (hf : f ∈ h.facets) {ax : Var}
    (hn : f.normal ax ≠ 0) : val f ⟨h.centre .rate, h.centre .ps, h.centre .pd⟩ < 0 := by
  obtain ⟨p, q, t, ⟨e, -⟩, -⟩ := hh.corners f hf
  have hne : h.points ≠ [] := List.ne_nil_of_mem (List.mem_of_getElem? e)
  have hm := centre_middle hne
  rw [hh.points] at hm
  obtain ⟨w, hw, hlt⟩ := hr _ hm f.a f.b f.c (by cases ax <;> simp only [Facet.normal] at hn <;> tauto)
  have h1 := (hh.solid w).1 (.sample hw) f hf
  unfold val at h1 ⊢
  simp only at hlt ⊢
  linarith

theorem test_spec {f : Facet} {ax : Var} (hn : f.normal ax ≠ 0) :
    f.normal ax * (h.centre ax - h.test ax f) = val f ⟨h.centre .rate, h.centre .ps, h.centre .pd⟩ := by
  rw [val_eq ax]
  unfold Hull.test
  cases ax <;> simp only [rest, others, P3.coord, Facet.normal] at hn ⊢ <;> field_simp <;> ring

theorem mem_lower (hh : IsHull pts h) (hr : Round pts) (ax : Var) (f : Facet) :
    f ∈ h.lower ax ↔ f ∈ h.facets ∧ 1 * f.normal ax < 0 := by
  unfold Hull.lower
  simp only [List.mem_filter, Bool.and_eq_true, decide_eq_true_eq, one_mul]
  refine and_congr_right fun hf => ?_
  by_cases hn : f.normal ax = 0
  · simp [hn]
  · have hc := centre_strict hh hr hf hn
    rw [← test_spec hn] at hc
    constructor
    · rintro ⟨-, h2⟩
      rcases lt_or_gt_of_ne hn with h3 | h3
      · exact h3
      · nlinarith
    · intro h3
      refine ⟨hn, ?_⟩
      by_contra h4
      push Not at h4
      nlinarith

theorem mem_upper (hh : IsHull pts h) (hr : Round pts) (ax : Var) (f : Facet) :
    f ∈ h.upper ax ↔ f ∈ h.facets ∧ -1 * f.normal ax < 0 := by
  unfold Hull.upper
  simp only [List.mem_filter, Bool.and_eq_true, decide_eq_true_eq]
  refine and_congr_right fun hf => ?_
  by_cases hn : f.normal ax = 0
  · simp [hn]
  · have hc := centre_strict hh hr hf hn
    rw [← test_spec hn] at hc
    constructor
    · rintro ⟨-, h2⟩
      rcases lt_or_gt_of_ne hn with h3 | h3
      · nlinarith
      · linarith
    · intro h3
      refine ⟨hn, ?_⟩
      by_contra h4
      push Not at h4
      nlinarith

theorem mem_mono (hh : IsHull pts h) (hr : Round pts) (f : Facet) :
    f ∈ h.upperMonotonic ↔ f ∈ h.facets ∧ 0 < f.a ∧ f.b ≤ 0 ∧ 0 ≤ f.c := by
  unfold Hull.upperMonotonic
  rw [List.mem_filter, mem_upper hh hr, and_assoc]
  refine and_congr_right fun _ => ?_
  simp only [Facet.normal, Bool.and_eq_true, decide_eq_true_eq]
  constructor
  · rintro ⟨h1, h2, h3⟩
    have ha : 0 < f.a := by linarith
    refine ⟨ha, ?_, ?_⟩
    · rcases div_nonpos_iff.1 h2 with h | h <;> linarith
    · rcases div_nonneg_iff.1 h3 with h | h <;> linarith
  · rintro ⟨h1, h2, h3⟩
    exact ⟨by linarith, div_nonpos_of_nonpos_of_nonneg h2 h1.le, div_nonneg h3 h1.le⟩

end

/-! ## Theorems -/

/-- **C101**: if the middle of the box around the points is inside the space, the lower simplices give the smallest value
of the space, and nothing where there are no points of the space. -/
theorem C101_lower (pts : List P3) (h : Hull) (hh : IsHull pts h) (hr : Round pts) (ax : Var) (w : ℚ × ℚ) (x : ℚ) :
    onSimplices (h.simplices ax (h.lower ax)) w = some x ↔ Smallest pts ax w x := by
  rw [half_spec hh (.inl rfl) (mem_lower hh hr ax)]
  simp only [one_mul, Smallest]

/-- **C101**: the upper simplices give the largest value. -/
theorem C101_upper (pts : List P3) (h : Hull) (hh : IsHull pts h) (hr : Round pts) (ax : Var) (w : ℚ × ℚ) (x : ℚ) :
    onSimplices (h.simplices ax (h.upper ax)) w = some x ↔ Largest pts ax w x := by
  rw [half_spec hh (.inr rfl) (mem_upper hh hr ax)]
  simp only [neg_one_mul, neg_le_neg_iff, Largest]

/-- **C101**: there is a limit exactly where there are points of the space. -/
theorem C101_domain (pts : List P3) (h : Hull) (hh : IsHull pts h) (hr : Round pts) (ax : Var) (w : ℚ × ℚ) :
    ((onSimplices (h.simplices ax (h.lower ax)) w).isSome ↔ ∃ y, Solid pts (place ax y w)) ∧
    ((onSimplices (h.simplices ax (h.upper ax)) w).isSome ↔ ∃ y, Solid pts (place ax y w)) := by
  have key : ∀ {s : ℚ} {fs : List Facet}, (s = 1 ∨ s = -1) → (∀ f, f ∈ fs ↔ f ∈ h.facets ∧ s * f.normal ax < 0) →
      ((onSimplices (h.simplices ax fs) w).isSome ↔ ∃ y, Solid pts (place ax y w)) := by
    intro s fs hs hm
    rw [Option.isSome_iff_exists]
    constructor
    · rintro ⟨x, hx⟩
      exact ⟨x, ((half_spec hh hs hm w x).1 hx).1⟩
    · rintro ⟨y, hy⟩
      obtain ⟨x, hx, f, hf, hfn, hfv⟩ := tight hh hs hy
      exact ⟨x, (half_spec hh hs hm w x).2 ⟨hx, fun y hy => extreme hh hs hf hfn hfv hy⟩⟩
  exact ⟨key (.inl rfl) (mem_lower hh hr ax), key (.inr rfl) (mem_upper hh hr ax)⟩

/-- **C101**: on the part of the upper simplices that is kept for the maximum rate, the value is the highest rate of all
points with at most the suction pressure and at least the discharge pressure. -/
theorem C101_max_rate (pts : List P3) (h : Hull) (hh : IsHull pts h) (hr : Round pts) (w : ℚ × ℚ) (x : ℚ)
    (hx : onSimplices (h.simplices .rate h.upperMonotonic) w = some x) :
    Solid pts ⟨x, w.1, w.2⟩ ∧ ∀ z, Solid pts z → z.s ≤ w.1 → w.2 ≤ z.d → z.r ≤ x := by
  have hfs : ∀ f ∈ h.upperMonotonic, f ∈ h.facets ∧ f.normal .rate ≠ 0 := fun f hf =>
    ⟨((mem_mono hh hr f).1 hf).1, ((mem_mono hh hr f).1 hf).2.1.ne'⟩
  obtain ⟨f, hf, -, -, -, -, -, k2, k3⟩ := on_facet hh hfs hx
  refine ⟨k2, fun z hz h1 h2 => ?_⟩
  obtain ⟨hff, ha, hb, hc⟩ := (mem_mono hh hr f).1 hf
  have h3 := (hh.solid z).1 hz f hff
  unfold val place at k3
  unfold val at h3
  simp only at k3
  have h4 : f.b * w.1 ≤ f.b * z.s := mul_le_mul_of_nonpos_left h1 hb
  have h5 : f.c * w.2 ≤ f.c * z.d := mul_le_mul_of_nonneg_left h2 hc
  by_contra h6
  push Not at h6
  have := mul_lt_mul_of_pos_left h6 ha
  linarith

/-! ## Tables with four points -/

theorem solid_four {pts : List P3} {p q t u : P3} (hp : Solid pts p) (hq : Solid pts q) (ht : Solid pts t)
    (hu : Solid pts u) {a b c e : ℚ} (ha : 0 ≤ a) (hb : 0 ≤ b) (hc : 0 ≤ c) (he : 0 ≤ e) (hs : a + b + c + e = 1) :
    Solid pts ⟨a * p.r + b * q.r + c * t.r + e * u.r, a * p.s + b * q.s + c * t.s + e * u.s,
      a * p.d + b * q.d + c * t.d + e * u.d⟩ := by
  rcases eq_or_lt_of_le (show 0 ≤ b + c + e by linarith) with e0 | hpos
  · have hb0 : b = 0 := by linarith
    have hc0 : c = 0 := by linarith
    have he0 : e = 0 := by linarith
    have ha1 : a = 1 := by linarith
    subst hb0 hc0 he0 ha1
    simpa using hp
  · have h1 : Solid pts _ := solid_tri hq ht hu (z := _)
      ⟨b / (b + c + e), c / (b + c + e), e / (b + c + e), div_nonneg hb hpos.le, div_nonneg hc hpos.le,
        div_nonneg he hpos.le, by field_simp, rfl⟩
    have h2 := Solid.mix (b + c + e) hpos.le (by linarith) hp h1
    have e' : ∀ x y z w : ℚ, (1 - (b + c + e)) * x + (b + c + e) * (b / (b + c + e) * y + c / (b + c + e) * z + e / (b + c + e) * w) =
        a * x + b * y + c * z + e * w := by
      intro x y z w
      have : a = 1 - (b + c + e) := by linarith
      rw [this]; field_simp; ring
    simp only [e'] at h2
    exact h2

/-- Four facets that are the sides of a tetrahedron are the hull of its corners. -/
theorem tetra {p1 p2 p3 p4 : P3} {f1 f2 f3 f4 : Facet} {m : ℚ} (hm : 0 < m)
    (i1 : f1.i = 1 ∧ f1.j = 2 ∧ f1.k = 3) (i2 : f2.i = 0 ∧ f2.j = 2 ∧ f2.k = 3)
    (i3 : f3.i = 0 ∧ f3.j = 1 ∧ f3.k = 3) (i4 : f4.i = 0 ∧ f4.j = 1 ∧ f4.k = 2)
    (sum : ∀ z, -m * (val f1 z + val f2 z + val f3 z + val f4 z) = 1)
    (comb : ∀ z : P3, z.r = -m * val f1 z * p1.r + -m * val f2 z * p2.r + -m * val f3 z * p3.r + -m * val f4 z * p4.r ∧
      z.s = -m * val f1 z * p1.s + -m * val f2 z * p2.s + -m * val f3 z * p3.s + -m * val f4 z * p4.s ∧
      z.d = -m * val f1 z * p1.d + -m * val f2 z * p2.d + -m * val f3 z * p3.d + -m * val f4 z * p4.d)
    (z1 : val f1 p2 = 0 ∧ val f1 p3 = 0 ∧ val f1 p4 = 0) (z2 : val f2 p1 = 0 ∧ val f2 p3 = 0 ∧ val f2 p4 = 0)
    (z3 : val f3 p1 = 0 ∧ val f3 p2 = 0 ∧ val f3 p4 = 0) (z4 : val f4 p1 = 0 ∧ val f4 p2 = 0 ∧ val f4 p3 = 0)
    (u1 : Upright f1 p2 p3 p4) (u2 : Upright f2 p1 p3 p4) (u3 : Upright f3 p1 p2 p4) (u4 : Upright f4 p1 p2 p3) :
    IsHull [p1, p2, p3, p4] ⟨[p1, p2, p3, p4], [f1, f2, f3, f4]⟩ := by
  have n1 : val f1 p1 ≤ 0 := by have := sum p1; rw [z2.1, z3.1, z4.1] at this; nlinarith
  have n2 : val f2 p2 ≤ 0 := by have := sum p2; rw [z1.1, z3.2.1, z4.2.1] at this; nlinarith
  have n3 : val f3 p3 ≤ 0 := by have := sum p3; rw [z1.2.1, z2.2.1, z4.2.2] at this; nlinarith
  have n4 : val f4 p4 ≤ 0 := by have := sum p4; rw [z1.2.2, z2.2.2, z3.2.2] at this; nlinarith
  have c1 : Corners ⟨[p1, p2, p3, p4], [f1, f2, f3, f4]⟩ f1 p2 p3 p4 := by
    unfold Corners; simp only; rw [i1.1, i1.2.1, i1.2.2]; exact ⟨rfl, rfl, rfl⟩
  have c2 : Corners ⟨[p1, p2, p3, p4], [f1, f2, f3, f4]⟩ f2 p1 p3 p4 := by
    unfold Corners; simp only; rw [i2.1, i2.2.1, i2.2.2]; exact ⟨rfl, rfl, rfl⟩
  have c3 : Corners ⟨[p1, p2, p3, p4], [f1, f2, f3, f4]⟩ f3 p1 p2 p4 := by
    unfold Corners; simp only; rw [i3.1, i3.2.1, i3.2.2]; exact ⟨rfl, rfl, rfl⟩
  have c4 : Corners ⟨[p1, p2, p3, p4], [f1, f2, f3, f4]⟩ f4 p1 p2 p3 := by
    unfold Corners; simp only; rw [i4.1, i4.2.1, i4.2.2]; exact ⟨rfl, rfl, rfl⟩
  have hsol : ∀ z, Solid [p1, p2, p3, p4] z → ∀ f ∈ [f1, f2, f3, f4], val f z ≤ 0 := by
    intro z hz f hf
    have key : ∀ p ∈ [p1, p2, p3, p4], val f p ≤ 0 := by
      simp only [List.mem_cons, List.not_mem_nil, or_false] at hf
      intro p hp
      simp only [List.mem_cons, List.not_mem_nil, or_false] at hp
      rcases hf with rfl | rfl | rfl | rfl <;> rcases hp with rfl | rfl | rfl | rfl <;> first
        | assumption
        | exact z1.1.le | exact z1.2.1.le | exact z1.2.2.le | exact z2.1.le | exact z2.2.1.le | exact z2.2.2.le
        | exact z3.1.le | exact z3.2.1.le | exact z3.2.2.le | exact z4.1.le | exact z4.2.1.le | exact z4.2.2.le
    have := solid_bound (a := f.a) (b := f.b) (c := f.c) (e := -f.e) (fun p hp => by have := key p hp; unfold val at this; linarith) hz
    unfold val; linarith
  have hneg : ∀ {x : ℚ}, x ≤ 0 → 0 ≤ -m * x := fun {x} hx => by nlinarith
  refine ⟨rfl, fun z => ⟨hsol z, fun hz => ?_⟩, ?_, ?_⟩
  · have k1 := hneg (hz f1 (by simp))
    have k2 := hneg (hz f2 (by simp))
    have k3 := hneg (hz f3 (by simp))
    have k4 := hneg (hz f4 (by simp))
    have := solid_four (pts := [p1, p2, p3, p4]) (.sample (p := p1) (by simp)) (.sample (p := p2) (by simp))
      (.sample (p := p3) (by simp)) (.sample (p := p4) (by simp)) k1 k2 k3 k4 (by linarith [sum z])
    obtain ⟨e1, e2, e3⟩ := comb z
    rw [← e1, ← e2, ← e3] at this
    exact this
  · intro f hf
    simp only [List.mem_cons, List.not_mem_nil, or_false] at hf
    rcases hf with rfl | rfl | rfl | rfl
    · exact ⟨_, _, _, c1, z1.1, z1.2.1, z1.2.2, u1⟩
    · exact ⟨_, _, _, c2, z2.1, z2.2.1, z2.2.2, u2⟩
    · exact ⟨_, _, _, c3, z3.1, z3.2.1, z3.2.2, u3⟩
    · exact ⟨_, _, _, c4, z4.1, z4.2.1, z4.2.2, u4⟩
  · intro f hf z hz hv
    have hb := hsol z hz
    have k1 := hneg (hb f1 (by simp))
    have k2 := hneg (hb f2 (by simp))
    have k3 := hneg (hb f3 (by simp))
    have k4 := hneg (hb f4 (by simp))
    obtain ⟨e1, e2, e3⟩ := comb z
    have hsum := sum z
    refine ⟨f, hf, 1, one_pos, (one_mul _).symm, (one_mul _).symm, (one_mul _).symm, ?_⟩
    have ext : ∀ {x y : P3}, x.r = y.r → x.s = y.s → x.d = y.d → x = y := by
      rintro ⟨⟩ ⟨⟩ h1 h2 h3; simp only at h1 h2 h3; rw [h1, h2, h3]
    simp only [List.mem_cons, List.not_mem_nil, or_false] at hf
    rcases hf with rfl | rfl | rfl | rfl
    · rw [hv] at e1 e2 e3 hsum
      exact ⟨_, _, _, c1, _, _, _, k2, k3, k4, by linarith, ext (by simp only; linarith) (by simp only; linarith) (by simp only; linarith)⟩
    · rw [hv] at e1 e2 e3 hsum
      exact ⟨_, _, _, c2, _, _, _, k1, k3, k4, by linarith, ext (by simp only; linarith) (by simp only; linarith) (by simp only; linarith)⟩
    · rw [hv] at e1 e2 e3 hsum
      exact ⟨_, _, _, c3, _, _, _, k1, k2, k4, by linarith, ext (by simp only; linarith) (by simp only; linarith) (by simp only; linarith)⟩
    · rw [hv] at e1 e2 e3 hsum
      exact ⟨_, _, _, c4, _, _, _, k1, k2, k3, by linarith, ext (by simp only; linarith) (by simp only; linarith) (by simp only; linarith)⟩

/-- Four operating points. -/
def four : List P3 := [⟨0, 1, 0⟩, ⟨1, 0, 0⟩, ⟨1, 1, 1⟩, ⟨0, 0, 1⟩]

/-- The hull of the four operating points. -/
def fourHull : Hull :=
  ⟨four, [⟨1, 2, 3, 1, -1, 1, -1⟩, ⟨0, 2, 3, -1, 1, 1, -1⟩, ⟨0, 1, 3, -1, -1, -1, 1⟩, ⟨0, 1, 2, 1, 1, -1, -1⟩]⟩

theorem four_hull : IsHull four fourHull := by
  refine tetra (m := 1 / 2) (by norm_num) ⟨rfl, rfl, rfl⟩ ⟨rfl, rfl, rfl⟩ ⟨rfl, rfl, rfl⟩ ⟨rfl, rfl, rfl⟩ ?_ ?_
    ?_ ?_ ?_ ?_ ⟨1, by norm_num, ?_⟩ ⟨-1, by norm_num, ?_⟩ ⟨1, by norm_num, ?_⟩ ⟨-1, by norm_num, ?_⟩
  · intro z; unfold val; ring
  · intro z; unfold val; refine ⟨?_, ?_, ?_⟩ <;> ring
  all_goals (try unfold val); norm_num

theorem middle_unique {pts : List P3} {m m' : P3} (h : Middle pts m) (h' : Middle pts m') : m = m' := by
  have key : ∀ ax, m.coord ax = m'.coord ax := by
    intro ax
    obtain ⟨l, hl, u, hu, hb, e⟩ := h ax
    obtain ⟨l', hl', u', hu', hb', e'⟩ := h' ax
    rw [e, e']
    have := hb l' hl'; have := hb u' hu'; have := hb' l hl; have := hb' u hu
    have : l.coord ax = l'.coord ax := by linarith
    have : u.coord ax = u'.coord ax := by linarith
    linarith
  have h1 := key .rate; have h2 := key .ps; have h3 := key .pd
  cases m; cases m'
  simp only [P3.coord] at h1 h2 h3
  rw [h1, h2, h3]

theorem four_round : Round four := by
  intro m hm a b c habc
  have : m = ⟨1 / 2, 1 / 2, 1 / 2⟩ := by
    refine middle_unique hm ?_
    intro ax
    cases ax
    · exact ⟨⟨0, 1, 0⟩, by simp [four], ⟨1, 0, 0⟩, by simp [four], by simp [four, P3.coord], by norm_num [P3.coord]⟩
    · exact ⟨⟨1, 0, 0⟩, by simp [four], ⟨0, 1, 0⟩, by simp [four], by simp [four, P3.coord], by norm_num [P3.coord]⟩
    · exact ⟨⟨1, 0, 0⟩, by simp [four], ⟨0, 0, 1⟩, by simp [four], by simp [four, P3.coord], by norm_num [P3.coord]⟩
  subst this
  by_contra hno
  push Not at hno
  have h1 := hno ⟨0, 1, 0⟩ (by simp [four])
  have h2 := hno ⟨1, 0, 0⟩ (by simp [four])
  have h3 := hno ⟨1, 1, 1⟩ (by simp [four])
  have h4 := hno ⟨0, 0, 1⟩ (by simp [four])
  simp only at h1 h2 h3 h4
  have ha : a = 0 := by linarith
  have hb : b = 0 := by linarith
  have hc : c = 0 := by linarith
  rcases habc with h | h | h
  · exact h ha
  · exact h hb
  · exact h hc

/-- The lowest rate, the lowest discharge pressure and the highest suction pressure between the four points. -/
example : onSimplices (fourHull.simplices .rate (fourHull.lower .rate)) (1 / 4, 1 / 4) = some (1 / 2) ∧
    onSimplices (fourHull.simplices .pd (fourHull.lower .pd)) (1 / 4, 1) = some (1 / 4) ∧
    onSimplices (fourHull.simplices .ps (fourHull.upper .ps)) (1, 1 / 4) = some (1 / 4) := by decide +kernel

/-- The points of the space with the pressures 1/4 and 1/4 have at least the rate 1/2. -/
example : Smallest four .rate (1 / 4, 1 / 4) (1 / 2) :=
  (C101_lower _ _ four_hull four_round _ _ _).1 (by decide +kernel)

example : ¬ ∃ y, Solid four (place .rate y (2, 0)) := by
  rw [← (C101_domain _ _ four_hull four_round .rate (2, 0)).1]
  decide +kernel

/-- With a suction pressure of at most 1/4 and a discharge pressure of at least 3/4 the rate is at most 1/2. -/
example : ∀ z, Solid four z → z.s ≤ 1 / 4 → 3 / 4 ≤ z.d → z.r ≤ 1 / 2 :=
  (C101_max_rate _ _ four_hull four_round (1 / 4, 3 / 4) (1 / 2) (by decide +kernel)).2

/-- Four operating points around a corner. -/
def corner : List P3 := [⟨0, 0, 0⟩, ⟨1, 0, 0⟩, ⟨0, 1, 0⟩, ⟨0, 0, 1⟩]

/-- The hull of the points around a corner. -/
def cornerHull : Hull :=
  ⟨corner, [⟨1, 2, 3, 1, 1, 1, -1⟩, ⟨0, 2, 3, -1, 0, 0, 0⟩, ⟨0, 1, 3, 0, -1, 0, 0⟩, ⟨0, 1, 2, 0, 0, -1, 0⟩]⟩

theorem corner_hull : IsHull corner cornerHull := by
  refine tetra (m := 1) (by norm_num) ⟨rfl, rfl, rfl⟩ ⟨rfl, rfl, rfl⟩ ⟨rfl, rfl, rfl⟩ ⟨rfl, rfl, rfl⟩ ?_ ?_
    ?_ ?_ ?_ ?_ ⟨1, by norm_num, ?_⟩ ⟨-1, by norm_num, ?_⟩ ⟨1, by norm_num, ?_⟩ ⟨-1, by norm_num, ?_⟩
  · intro z; unfold val; ring
  · intro z; unfold val; refine ⟨?_, ?_, ?_⟩ <;> ring
  all_goals (try unfold val); norm_num

/-- **C101** (finding): the middle of the box need not be inside the space. For the points around a corner the slanted
upper facet counts as lower and no facet counts as upper, for all three axes. -/
theorem C101_box : ∃ pts h, IsHull pts h ∧ ∀ ax, h.upper ax = [] ∧ ∃ f ∈ h.lower ax, 0 < f.normal ax :=
  ⟨corner, cornerHull, corner_hull, fun ax => by
    cases ax
    · exact ⟨by decide +kernel, ⟨1, 2, 3, 1, 1, 1, -1⟩, by decide +kernel, by decide +kernel⟩
    · exact ⟨by decide +kernel, ⟨1, 2, 3, 1, 1, 1, -1⟩, by decide +kernel, by decide +kernel⟩
    · exact ⟨by decide +kernel, ⟨1, 2, 3, 1, 1, 1, -1⟩, by decide +kernel, by decide +kernel⟩⟩

/-- The facets of the points around a corner in another order. -/
def cornerHull' : Hull :=
  ⟨corner, [⟨0, 2, 3, -1, 0, 0, 0⟩, ⟨0, 1, 3, 0, -1, 0, 0⟩, ⟨0, 1, 2, 0, 0, -1, 0⟩, ⟨1, 2, 3, 1, 1, 1, -1⟩]⟩

theorem corner_hull' : IsHull corner cornerHull' := by
  have mem : ∀ f, f ∈ cornerHull'.facets ↔ f ∈ cornerHull.facets := by
    intro f; simp only [cornerHull', cornerHull, List.mem_cons, List.not_mem_nil, or_false]; tauto
  have hh := corner_hull
  refine ⟨rfl, fun z => ?_, fun f hf => hh.corners f ((mem f).1 hf), fun f hf z hz hv => ?_⟩
  · rw [hh.solid]
    exact forall_congr' fun f => by rw [mem]
  · obtain ⟨g, hg, k⟩ := hh.faces f ((mem f).1 hf) z hz hv
    exact ⟨g, (mem g).2 hg, k⟩

/-- **C101** (finding): the minimum rate is then too high, depending on the order in which the library gives the facets:
1/2 where the smallest rate is zero. -/
theorem C101_box_minimum : ∃ pts h w x, IsHull pts h ∧ Smallest pts .rate w 0 ∧ 0 < x ∧
    onSimplices (h.simplices .rate (h.lower .rate)) w = some x := by
  refine ⟨corner, cornerHull', (1 / 4, 1 / 4), 1 / 2, corner_hull', ⟨?_, ?_⟩, by norm_num, by decide +kernel⟩
  · refine (corner_hull'.solid _).2 fun f hf => ?_
    simp only [cornerHull', List.mem_cons, List.not_mem_nil, or_false] at hf
    rcases hf with rfl | rfl | rfl | rfl <;> norm_num [val, place]
  · intro y hy
    have := (corner_hull'.solid _).1 hy ⟨0, 2, 3, -1, 0, 0, 0⟩ (by simp [cornerHull'])
    simp only [val, place] at this
    linarith

end Verif.C101
