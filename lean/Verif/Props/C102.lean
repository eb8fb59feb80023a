import Mathlib.Tactic.Linarith
import Mathlib.Tactic.NormNum
import Mathlib.Tactic.Ring
import Mathlib.Tactic.FieldSimp
import Mathlib.Tactic.LinearCombination
import Verif.Model.Spatial
import Verif.Props.C85
import Verif.Props.C101

/-!
# C102: sampled compressors with three varying variables

A sampled compressor with three varying variables has a value where some operating point in the sampled space does at
least what is asked for, up to a small tolerance in the rate, and the value belongs to such a point.
-/

namespace Verif.C102
open Verif.Rates Verif.Sampled Verif.Spatial
open Verif.C101 (Solid place rest)

/-! ## Specification -/

/-- Blends of the sampled points together with their energies. -/
inductive Mix (samples : List (P3 × ℚ)) : P3 × ℚ → Prop
  | sample {x} (h : x ∈ samples) : Mix samples x
  | mix {x y} (k : ℚ) (h0 : 0 ≤ k) (h1 : k ≤ 1) (hx : Mix samples x) (hy : Mix samples y) :
      Mix samples (⟨(1 - k) * x.1.r + k * y.1.r, (1 - k) * x.1.s + k * y.1.s, (1 - k) * x.1.d + k * y.1.d⟩,
        (1 - k) * x.2 + k * y.2)

/-- What `LinearNDInterpolator` promises in three dimensions. -/
structure Interpolates (samples : List (P3 × ℚ)) (f : P3 → Fl) : Prop where
  domain : ∀ z, (f z).isSome ↔ Solid (samples.map (·.1)) z
  blend : ∀ z e, f z = some e → Mix samples (z, e)

/-- What is promised of the geometric library. -/
structure Promise (g : Geometry) : Prop where
  plane : C81.Promise g.plane
  hull : ∀ pts h, g.hull pts = .ok h → C101.IsHull pts h
  interp : ∀ samples, Interpolates samples (g.interp samples)

/-- The sampled points of a table with columns rate, suction pressure, discharge pressure, energy. -/
def pointsOf (rows : List (ℚ × ℚ × ℚ × ℚ)) : List (P3 × ℚ) := rows.map fun x => (⟨x.1, x.2.1, x.2.2.1⟩, x.2.2.2)

/-- The sampled space. -/
def Covers (rows : List (ℚ × ℚ × ℚ × ℚ)) (z : P3) : Prop := Solid ((pointsOf rows).map (·.1)) z

/-- The operating point `z` does what is asked for: at least the rate, at most the suction pressure, at least the
discharge pressure. -/
def Serves (rate ps pd : ℚ) (z : P3) : Prop := rate ≤ z.r ∧ z.s ≤ ps ∧ pd ≤ z.d

/-- The tolerance in the rate: one part in ten thousand of the range of sampled rates. -/
def Tolerance (rows : List (ℚ × ℚ × ℚ × ℚ)) (t : ℚ) : Prop :=
  ∃ l ∈ rows, ∃ u ∈ rows, (∀ x ∈ rows, l.1 ≤ x.1 ∧ x.1 ≤ u.1) ∧ t = (u.1 - l.1) / 10000

/-- No column has negative values. -/
def Nonnegative (rows : List (ℚ × ℚ × ℚ × ℚ)) : Prop := ∀ x ∈ rows, 0 ≤ x.1 ∧ 0 ≤ x.2.1 ∧ 0 ≤ x.2.2.1

/-! ## The area of one side -/

theorem ext3 {x y : P3} (h1 : x.r = y.r) (h2 : x.s = y.s) (h3 : x.d = y.d) : x = y := by
  cases x; cases y; simp only at h1 h2 h3; rw [h1, h2, h3]

theorem mix_solid {samples : List (P3 × ℚ)} {x : P3 × ℚ} (h : Mix samples x) : Solid (samples.map (·.1)) x.1 := by
  induction h with
  | sample hx => exact .sample (List.mem_map_of_mem hx)
  | mix k h0 h1 _ _ ih1 ih2 => exact .mix k h0 h1 ih1 ih2

theorem mix_place {ax : Var} {k v v' : ℚ} {w w' : ℚ × ℚ} :
    (⟨(1 - k) * (place ax v w).r + k * (place ax v' w').r, (1 - k) * (place ax v w).s + k * (place ax v' w').s,
      (1 - k) * (place ax v w).d + k * (place ax v' w').d⟩ : P3) =
      place ax ((1 - k) * v + k * v') ((1 - k) * w.1 + k * w'.1, (1 - k) * w.2 + k * w'.2) := by
  cases ax <;> rfl

/-- The area of points that have some value along the axis. -/
def Shadow (pts : List P3) (ax : Var) (w : ℚ × ℚ) : Prop := ∃ v, Solid pts (place ax v w)

section
variable {pts : List P3} {h : Hull}

theorem shadow_of_area {ax : Var} {qs : List (ℚ × ℚ)} (hq : ∀ w ∈ qs, Shadow pts ax w) {w : ℚ × ℚ} (hw : C81.Area qs w) :
    Shadow pts ax w := by
  induction hw with
  | sample hp => exact hq _ hp
  | @mix p q k h0 h1 _ _ ih1 ih2 =>
    obtain ⟨v, hv⟩ := ih1
    obtain ⟨v', hv'⟩ := ih2
    have := Solid.mix k h0 h1 hv hv'
    rw [mix_place] at this
    exact ⟨_, this⟩

theorem area_tri {qs : List (ℚ × ℚ)} {p q t w : ℚ × ℚ} (hp : C81.Area qs p) (hq : C81.Area qs q) (ht : C81.Area qs t)
    (hw : C101.Within p q t w) : C81.Area qs w := by
  obtain ⟨i, j, k, hi, hj, hk, hs, rfl⟩ := hw
  rcases eq_or_lt_of_le (add_nonneg hj hk) with e | hpos
  · have hj0 : j = 0 := by linarith
    have hk0 : k = 0 := by linarith
    have hi1 : i = 1 := by linarith
    subst hj0 hk0 hi1
    simpa using hp
  · have h1 := C81.Area.mix (k / (j + k)) (div_nonneg hk hpos.le) ((div_le_one hpos).2 (by linarith)) hq ht
    have h2 := C81.Area.mix (j + k) hpos.le (by linarith) hp h1
    have e : ∀ a b c : ℚ, (1 - (j + k)) * a + (j + k) * ((1 - k / (j + k)) * b + k / (j + k) * c) =
        i * a + j * b + k * c := by
      intro a b c
      have : i = 1 - (j + k) := by linarith
      rw [this]; field_simp; ring
    simp only [e] at h2
    exact h2

theorem mem_rest (hh : C101.IsHull pts h) {fs : List Facet} {ax : Var} :
    ∀ w ∈ (h.pointsOf fs).map (rest ax), Shadow pts ax w := by
  intro w hw
  obtain ⟨p, hp, rfl⟩ := List.mem_map.1 hw
  obtain ⟨f, -, hk⟩ := C101.mem_pointsOf.1 hp
  have : p ∈ pts := by
    rw [← hh.points]
    rcases hk with hk | hk | hk <;> exact List.mem_of_getElem? hk
  exact ⟨p.coord ax, by rw [C101.place_rest]; exact .sample this⟩

/-- A point of the space in the triangle of a facet is in the area of the facet's points. -/
theorem area_of_within {fs : List Facet} {ax : Var} {f : Facet} (hf : f ∈ fs) {p q t : P3} (hc : C101.Corners h f p q t)
    {v : ℚ} {w : ℚ × ℚ} (hw : C101.Within3 p q t (place ax v w)) : C81.Area ((h.pointsOf fs).map (rest ax)) w := by
  refine area_tri (.sample (List.mem_map_of_mem (C101.mem_pointsOf.2 ⟨f, hf, .inl hc.1⟩)))
    (.sample (List.mem_map_of_mem (C101.mem_pointsOf.2 ⟨f, hf, .inr (.inl hc.2.1)⟩)))
    (.sample (List.mem_map_of_mem (C101.mem_pointsOf.2 ⟨f, hf, .inr (.inr hc.2.2)⟩))) ?_
  exact (C101.within_iff ax p q t w).2 ⟨v, hw⟩

theorem area_iff (hh : C101.IsHull pts h) {fs : List Facet} {ax : Var} {s : ℚ} (hs : s = 1 ∨ s = -1)
    (hm : ∀ f, f ∈ fs ↔ f ∈ h.facets ∧ s * f.normal ax < 0) (w : ℚ × ℚ) :
    C81.Area ((h.pointsOf fs).map (rest ax)) w ↔ Shadow pts ax w := by
  refine ⟨shadow_of_area (mem_rest hh), fun ⟨v, hv⟩ => ?_⟩
  obtain ⟨x, hx, f, hf, hfn, hfv⟩ := C101.tight hh hs hv
  obtain ⟨g, hg, m, hmp, ha, hb, hc, p, q, t, c, hin⟩ := hh.faces f hf _ hx hfv
  have hgn : s * g.normal ax < 0 := by rw [C101.normal_scale ha hb hc]; nlinarith
  exact area_of_within ((hm g).2 ⟨hg, hgn⟩) c hin

theorem solid_coord {ax : Var} {s e : ℚ} (hb : ∀ p ∈ pts, s * p.coord ax ≤ e) {z : P3} (hz : Solid pts z) : s * z.coord ax ≤ e := by
  cases ax with
  | rate =>
    have := C101.solid_bound (a := s) (b := 0) (c := 0) (fun p hp => by have := hb p hp; simp only [P3.coord] at this; linarith) hz
    simp only [P3.coord]; linarith
  | ps =>
    have := C101.solid_bound (a := 0) (b := s) (c := 0) (fun p hp => by have := hb p hp; simp only [P3.coord] at this; linarith) hz
    simp only [P3.coord]; linarith
  | pd =>
    have := C101.solid_bound (a := 0) (b := 0) (c := s) (fun p hp => by have := hb p hp; simp only [P3.coord] at this; linarith) hz
    simp only [P3.coord]; linarith

/-- If the middle of the box is inside the space, the middle of the rectangle around the points of a half is inside their
area. -/
theorem round_rest (hh : C101.IsHull pts h) (hr : C101.Round pts) {ax : Var} {qs : List (ℚ × ℚ)}
    (ha : ∀ w, C81.Area qs w ↔ Shadow pts ax w) : C81.Round qs := by
  intro m hm a b hab
  by_contra hno
  push Not at hno
  obtain ⟨l, hl, r, hr', d, hd, u, hu, hbox, rfl⟩ := hm
  have hne : h.points ≠ [] := by
    intro e
    obtain ⟨v, hv⟩ := (ha l).1 (.sample hl)
    have : ∀ z, ¬ Solid pts z := by
      intro z hz
      induction hz with
      | sample hp => rw [← hh.points, e] at hp; cases hp
      | mix _ _ _ _ _ ih _ => exact ih
    exact this _ hv
  have hM := C101.centre_middle hne
  rw [hh.points] at hM
  set M : P3 := ⟨h.centre .rate, h.centre .ps, h.centre .pd⟩ with hMdef
  have harea : ∀ p ∈ pts, C81.Area qs (rest ax p) := fun p hp =>
    (ha _).2 ⟨p.coord ax, by rw [C101.place_rest]; exact .sample hp⟩
  have e1 : M.coord (others ax).1 = (r.1 + l.1) / 2 := by
    obtain ⟨L, hL, U, hU, hb, e⟩ := hM (others ax).1
    have k1 : U.coord (others ax).1 ≤ r.1 := by
      have := C81.area_bound (a := 1) (b := 0) (c := r.1) (fun p hp => by have := (hbox p hp).2.1; linarith) (harea U hU)
      simp only [rest] at this; linarith
    have k2 : l.1 ≤ L.coord (others ax).1 := by
      have := C81.area_bound (a := -1) (b := 0) (c := -l.1) (fun p hp => by have := (hbox p hp).1; linarith) (harea L hL)
      simp only [rest] at this; linarith
    have k3 : r.1 ≤ U.coord (others ax).1 := by
      obtain ⟨v, hv⟩ := (ha r).1 (.sample hr')
      have := solid_coord (ax := (others ax).1) (s := 1) (e := U.coord (others ax).1) (fun p hp => by have := (hb p hp).2; linarith) hv
      rw [C101.coord_place_fst] at this; linarith
    have k4 : L.coord (others ax).1 ≤ l.1 := by
      obtain ⟨v, hv⟩ := (ha l).1 (.sample hl)
      have := solid_coord (ax := (others ax).1) (s := -1) (e := -L.coord (others ax).1) (fun p hp => by have := (hb p hp).1; linarith) hv
      rw [C101.coord_place_fst] at this; linarith
    rw [e]; linarith
  have e2 : M.coord (others ax).2 = (u.2 + d.2) / 2 := by
    obtain ⟨L, hL, U, hU, hb, e⟩ := hM (others ax).2
    have k1 : U.coord (others ax).2 ≤ u.2 := by
      have := C81.area_bound (a := 0) (b := 1) (c := u.2) (fun p hp => by have := (hbox p hp).2.2.2; linarith) (harea U hU)
      simp only [rest] at this; linarith
    have k2 : d.2 ≤ L.coord (others ax).2 := by
      have := C81.area_bound (a := 0) (b := -1) (c := -d.2) (fun p hp => by have := (hbox p hp).2.2.1; linarith) (harea L hL)
      simp only [rest] at this; linarith
    have k3 : u.2 ≤ U.coord (others ax).2 := by
      obtain ⟨v, hv⟩ := (ha u).1 (.sample hu)
      have := solid_coord (ax := (others ax).2) (s := 1) (e := U.coord (others ax).2) (fun p hp => by have := (hb p hp).2; linarith) hv
      rw [C101.coord_place_snd] at this; linarith
    have k4 : L.coord (others ax).2 ≤ d.2 := by
      obtain ⟨v, hv⟩ := (ha d).1 (.sample hd)
      have := solid_coord (ax := (others ax).2) (s := -1) (e := -L.coord (others ax).2) (fun p hp => by have := (hb p hp).1; linarith) hv
      rw [C101.coord_place_snd] at this; linarith
    rw [e]; linarith
  have key : ∀ p ∈ pts, a * (rest ax p).1 + b * (rest ax p).2 ≤ a * ((r.1 + l.1) / 2) + b * ((u.2 + d.2) / 2) := fun p hp =>
    C81.area_bound (fun q hq => by have := hno q hq; simp only at this; linarith) (harea p hp)
  cases ax with
  | rate =>
    obtain ⟨p, hp, hlt⟩ := hr M hM 0 a b (by tauto)
    have := key p hp
    simp only [rest, others, P3.coord] at this e1 e2
    rw [e1, e2] at hlt; linarith
  | ps =>
    obtain ⟨p, hp, hlt⟩ := hr M hM a 0 b (by tauto)
    have := key p hp
    simp only [rest, others, P3.coord] at this e1 e2
    rw [e1, e2] at hlt; linarith
  | pd =>
    obtain ⟨p, hp, hlt⟩ := hr M hM a b 0 (by tauto)
    have := key p hp
    simp only [rest, others, P3.coord] at this e1 e2
    rw [e1, e2] at hlt; linarith

/-! ## One side -/

theorem rows_map (l : List P3) (ax : Var) : ((l.map (row ax)).map fun r => (r.1, r.2.1)) = l.map (rest ax) := by
  rw [List.map_map]; rfl

theorem projection_follows {qs : List (ℚ × ℚ)} {h2 : Planar.Hull} (hh : C81.IsHull qs h2) (hr : C81.Round qs) {k : Kind}
    {pl : Planar.Plane} (he : projection k h2 = .ok pl) :
    C81.Follows qs (C81.axisOf k) 1 pl.first ∧ C81.Follows qs (C81.axisOf k).other (C81.signOf k) pl.second := by
  cases k with
  | ratePd =>
    obtain ⟨c1, e1, he⟩ := C80.bind_ok he
    obtain ⟨c2, e2, he⟩ := C80.bind_ok he
    have := (Except.ok.inj he).symm
    subst this
    exact ⟨C81.follows hh (ax := .zero) (.inl rfl) (C81.mem_lower hh hr _) e1,
      C81.follows hh (ax := .one) (.inl rfl) (C81.mem_lower hh hr _) e2⟩
  | ratePs =>
    obtain ⟨c1, e1, he⟩ := C80.bind_ok he
    obtain ⟨c2, e2, he⟩ := C80.bind_ok he
    have := (Except.ok.inj he).symm
    subst this
    exact ⟨C81.follows hh (ax := .zero) (.inl rfl) (C81.mem_lower hh hr _) e1,
      C81.follows hh (ax := .one) (.inr rfl) (C81.mem_upper hh hr _) e2⟩
  | psPd =>
    obtain ⟨c1, e1, he⟩ := C80.bind_ok he
    obtain ⟨c2, e2, he⟩ := C80.bind_ok he
    have := (Except.ok.inj he).symm
    subst this
    exact ⟨C81.follows hh (ax := .one) (.inl rfl) (C81.mem_lower hh hr _) e1,
      C81.follows hh (ax := .zero) (.inr rfl) (C81.mem_upper hh hr _) e2⟩

theorem energyRows_spec {samples : List (P3 × ℚ)} (hp : h.points = samples.map (·.1)) {ax : Var} {fs : List Facet} :
    ((energyRows h (samples.map (·.2)) ax fs).map fun r => (r.1, r.2.1)) = (h.pointsOf fs).map (rest ax) ∧
    ∀ r ∈ energyRows h (samples.map (·.2)) ax fs, ∃ v, Mix samples (place ax v (r.1, r.2.1), r.2.2) := by
  have key : ∀ n ∈ h.indicesOf fs, ∃ x ∈ samples, h.points[n]? = some x.1 ∧ (samples.map (·.2))[n]? = some x.2 := by
    intro n hn
    have hlt := (C101.mem_indicesOf.1 hn).1
    rw [hp, List.length_map] at hlt
    refine ⟨samples[n], List.getElem_mem hlt, ?_, ?_⟩
    · rw [hp, List.getElem?_map, List.getElem?_eq_getElem hlt]; rfl
    · rw [List.getElem?_map, List.getElem?_eq_getElem hlt]; rfl
  constructor
  · unfold energyRows Hull.pointsOf
    rw [List.map_filterMap, List.map_filterMap]
    refine List.filterMap_congr fun n hn => ?_
    obtain ⟨x, -, e1, e2⟩ := key n hn
    rw [e1, e2]; rfl
  · intro r hr
    unfold energyRows at hr
    obtain ⟨n, hn, e⟩ := List.mem_filterMap.1 hr
    obtain ⟨x, hx, e1, e2⟩ := key n hn
    rw [e1, e2] at e
    have e := Option.some.inj e
    subst e
    refine ⟨x.1.coord ax, ?_⟩
    have := C101.place_rest ax x.1
    unfold rest at this
    rw [this]
    exact .sample hx

theorem blend_mix {samples : List (P3 × ℚ)} {ax : Var} {rows : List (ℚ × ℚ × ℚ)}
    (hr : ∀ r ∈ rows, ∃ v, Mix samples (place ax v (r.1, r.2.1), r.2.2)) {x : ℚ × ℚ × ℚ} (hx : C81.Blend rows x) :
    ∃ v, Mix samples (place ax v (x.1, x.2.1), x.2.2) := by
  induction hx with
  | sample h => exact hr _ h
  | @mix p q k h0 h1 _ _ ih1 ih2 =>
    obtain ⟨v, hv⟩ := ih1
    obtain ⟨v', hv'⟩ := ih2
    have := Mix.mix k h0 h1 hv hv'
    rw [mix_place] at this
    exact ⟨_, this⟩

theorem blend_solid {ax : Var} {l : List P3} (hl : ∀ p ∈ l, Solid pts p) {x : ℚ × ℚ × ℚ} (hx : C81.Blend (l.map (row ax)) x) :
    Solid pts (place ax x.2.2 (x.1, x.2.1)) := by
  induction hx with
  | sample h =>
    obtain ⟨p, hp, rfl⟩ := List.mem_map.1 h
    have := C101.place_rest ax p
    unfold rest at this
    show Solid pts (place ax (p.coord ax) (p.coord (others ax).1, p.coord (others ax).2))
    rw [this]
    exact hl p hp
  | @mix p q k h0 h1 _ _ ih1 ih2 =>
    have := Solid.mix k h0 h1 ih1 ih2
    rw [mix_place] at this
    exact this

theorem pointsOf_solid (hh : C101.IsHull pts h) {fs : List Facet} : ∀ p ∈ h.pointsOf fs, Solid pts p := by
  intro p hp
  obtain ⟨f, -, hk⟩ := C101.mem_pointsOf.1 hp
  refine .sample ?_
  rw [← hh.points]
  rcases hk with hk | hk | hk <;> exact List.mem_of_getElem? hk

/-- The energies on some points: where there is one, and what it is. -/
theorem energies_spec {g : Geometry} (hg : Promise g) {samples : List (P3 × ℚ)} (hp : h.points = samples.map (·.1))
    {ax : Var} {fs : List Facet} (w : ℚ × ℚ) :
    ((g.plane.interp (energyRows h (samples.map (·.2)) ax fs) w).isSome ↔ C81.Area ((h.pointsOf fs).map (rest ax)) w) ∧
    ∀ e, g.plane.interp (energyRows h (samples.map (·.2)) ax fs) w = some e → ∃ v, Mix samples (place ax v w, e) := by
  obtain ⟨e1, e2⟩ := energyRows_spec hp (ax := ax) (fs := fs)
  have hi := hg.plane.interp (energyRows h (samples.map (·.2)) ax fs)
  constructor
  · rw [hi.domain, e1]
  · intro e he
    exact blend_mix e2 (hi.blend w e he)

/-- What is known about one side. -/
structure SideSpec (g : Geometry) (samples : List (P3 × ℚ)) (ax : Var) (s : ℚ) (sd : Side) : Prop where
  serves : ∀ x y, C81.Serves (kindOf ax) x y (sd.plane.project (kindOf ax) x y)
  reach : ∀ x y, (∃ z, Shadow (samples.map (·.1)) ax z ∧ C81.Serves (kindOf ax) x y z) →
    Shadow (samples.map (·.1)) ax (sd.plane.project (kindOf ax) x y)
  first : ∀ x y z, Shadow (samples.map (·.1)) ax z → C81.Serves (kindOf ax) x y z →
    Planar.coord z (C81.axisOf (kindOf ax)).other = Planar.coord (x, y) (C81.axisOf (kindOf ax)).other →
    Planar.coord (sd.plane.project (kindOf ax) x y) (C81.axisOf (kindOf ax)) ≤ Planar.coord z (C81.axisOf (kindOf ax))
  second : ∀ x y z, Shadow (samples.map (·.1)) ax z → C81.Serves (kindOf ax) x y z →
    Planar.coord z (C81.axisOf (kindOf ax)) = Planar.coord (sd.plane.project (kindOf ax) x y) (C81.axisOf (kindOf ax)) →
    C81.signOf (kindOf ax) * Planar.coord (sd.plane.project (kindOf ax) x y) (C81.axisOf (kindOf ax)).other ≤
      C81.signOf (kindOf ax) * Planar.coord z (C81.axisOf (kindOf ax)).other
  stay : ∀ x y, Shadow (samples.map (·.1)) ax (x, y) → sd.plane.project (kindOf ax) x y = (x, y)
  limit : ∀ w, Shadow (samples.map (·.1)) ax w → ∃ m, sd.limit.at g w = some m ∧ Solid (samples.map (·.1)) (place ax m w) ∧
    ∀ v, Solid (samples.map (·.1)) (place ax v w) → s * m ≤ s * v
  domain : ∀ w, (g.plane.interp sd.energies w).isSome ↔ Shadow (samples.map (·.1)) ax w
  blend : ∀ w e, g.plane.interp sd.energies w = some e → ∃ v, Mix samples (place ax v w, e)

theorem side_spec {g : Geometry} (hg : Promise g) {samples : List (P3 × ℚ)} (hh : C101.IsHull (samples.map (·.1)) h)
    (hr : C101.Round (samples.map (·.1))) {ax : Var} {s : ℚ} (hs : s = 1 ∨ s = -1) {fs : List Facet}
    (hm : ∀ f, f ∈ fs ↔ f ∈ h.facets ∧ s * f.normal ax < 0) {fill : Fl} {sd : Side}
    (he : makeSide g h (samples.map (·.2)) ax fs fill = .ok sd) : SideSpec g samples ax s sd := by
  obtain ⟨h2, eh, he⟩ := C80.bind_ok he
  obtain ⟨pl, ep, he⟩ := C80.bind_ok he
  have := (Except.ok.inj he).symm
  subst this
  have hh2 := hg.plane.hull _ _ eh
  rw [rows_map] at hh2
  have ha := area_iff hh hs hm
  have hr2 := round_rest hh hr ha
  obtain ⟨f1, f2⟩ := projection_follows hh2 hr2 ep
  have hsp := C81.project_spec f1 f2
  simp only [ha] at hsp
  refine ⟨fun x y => (hsp x y).1, fun x y => (hsp x y).2.1, fun x y => (hsp x y).2.2.2.1, fun x y => (hsp x y).2.2.2.2,
    fun x y => (hsp x y).2.2.1, ?_, ?_, ?_⟩
  · rintro w ⟨y, hy⟩
    obtain ⟨m, hm1, f, hf, hfn, hfv⟩ := C101.tight hh hs hy
    have hext : ∀ v, Solid (samples.map (·.1)) (place ax v w) → s * m ≤ s * v := fun v hv => C101.extreme hh hs hf hfn hfv hv
    refine ⟨m, ?_, hm1, hext⟩
    have := (C101.half_spec hh hs hm w m).2 ⟨hm1, hext⟩
    simp only [Surface.at, this]
  · intro w
    rw [(energies_spec hg hh.points w).1, ha]
  · intro w e
    exact (energies_spec hg hh.points w).2 e

/-- What is known about the side of the maximum rate. -/
structure MaxSpec (g : Geometry) (samples : List (P3 × ℚ)) (area : ℚ × ℚ → Prop) (sd : Side) : Prop where
  serves : ∀ x y, (sd.plane.project .psPd x y).1 ≤ x ∧ y ≤ (sd.plane.project .psPd x y).2
  inside : ∀ w, area w → ∃ m, sd.limit.at g w = some m ∧ Solid (samples.map (·.1)) (place .rate m w)
  outside : ∀ w, ¬ area w → sd.limit.at g w = some 0
  domain : ∀ w, (g.plane.interp sd.energies w).isSome ↔ area w
  blend : ∀ w e, g.plane.interp sd.energies w = some e → ∃ v, Mix samples (place .rate v w, e)

theorem le_fmax (x : ℚ) (y : Fl) : x ≤ Planar.fmax x y := by
  cases y
  · exact le_rfl
  · exact le_max_left _ _

theorem fmin_le (x : ℚ) (y : Fl) : Planar.fmin x y ≤ x := by
  cases y
  · exact le_rfl
  · exact min_le_left _ _

theorem max_spec {g : Geometry} (hg : Promise g) {samples : List (P3 × ℚ)} (hh : C101.IsHull (samples.map (·.1)) h)
    (hr : C101.Round (samples.map (·.1))) {sd : Side} (he : makeMax g h (samples.map (·.2)) = .ok sd) :
    MaxSpec g samples (C81.Area ((h.pointsOf h.upperMonotonic).map (rest .rate))) sd := by
  obtain ⟨h2, eh, he⟩ := C80.bind_ok he
  obtain ⟨pl, ep, he⟩ := C80.bind_ok he
  have := (Except.ok.inj he).symm
  subst this
  have hfs : ∀ f ∈ h.upperMonotonic, f ∈ h.facets ∧ f.normal .rate ≠ 0 := fun f hf =>
    ⟨((C101.mem_mono hh hr f).1 hf).1, ((C101.mem_mono hh hr f).1 hf).2.1.ne'⟩
  have hi := hg.plane.interp ((h.pointsOf h.upperMonotonic).map (row .rate))
  have hd := hi.domain
  rw [rows_map] at hd
  refine ⟨fun x y => ⟨fmin_le _ _, le_fmax _ _⟩, ?_, ?_, fun w => (energies_spec hg hh.points w).1, fun w => (energies_spec hg hh.points w).2⟩
  · intro w hw
    cases e : onSimplices (h.simplices .rate h.upperMonotonic) w with
    | some x =>
      obtain ⟨-, -, -, -, -, -, -, k, -⟩ := C101.on_facet hh hfs e
      exact ⟨x, by simp only [Surface.at, e], k⟩
    | none =>
      obtain ⟨v, ev⟩ := Option.isSome_iff_exists.1 ((hd w).2 hw)
      refine ⟨v, by simp only [Surface.at, e, ev], ?_⟩
      exact blend_solid (pointsOf_solid hh) (hi.blend w v ev)
  · intro w hw
    cases e : onSimplices (h.simplices .rate h.upperMonotonic) w with
    | some x =>
      obtain ⟨f, hf, p, q, t, c, k1, -⟩ := C101.on_facet hh hfs e
      exact absurd (area_of_within hf c k1) hw
    | none =>
      have : g.plane.interp ((h.pointsOf h.upperMonotonic).map (row .rate)) w = none := by
        cases ev : g.plane.interp ((h.pointsOf h.upperMonotonic).map (row .rate)) w with
        | none => rfl
        | some v => exact absurd ((hd w).1 (by rw [ev]; rfl)) hw
      simp only [Surface.at, e, this]

end

/-! ## The whole space -/

/-- What is known about a compressor that was created, in scaled rates. -/
structure SpaceSpec (g : Geometry) (area : ℚ × ℚ → Prop) (x : Space) : Prop where
  minRate : SideSpec g x.samples .rate 1 x.minRate
  maxRate : MaxSpec g x.samples area x.maxRate
  minPd : SideSpec g x.samples .pd 1 x.minPd
  maxPs : SideSpec g x.samples .ps (-1) x.maxPs
  slack : 0 ≤ x.slack

theorem orElse_some {a b : Fl} {e : ℚ} (h : orElse a b = some e) : a = some e ∨ (a = none ∧ b = some e) := by
  cases a with
  | none => exact .inr ⟨rfl, h⟩
  | some v => exact .inl h

theorem orElse_none {a b : Fl} (h : orElse a b = none) : a = none ∧ b = none := by
  cases a with
  | none => exact ⟨rfl, h⟩
  | some v => cases h

/-- Three points around `(r, s, d)`, of which the second and the third are as close as possible, have it between them. -/
theorem between {pts : List P3} {r s d r' s' D r'' d'' S s0 d0 : ℚ} (h0 : Solid pts ⟨r, s0, d0⟩) (hs0 : s0 ≤ s) (hd0 : d ≤ d0)
    (h1 : Solid pts ⟨r', s', D⟩) (hr' : r ≤ r') (hs' : s' ≤ s) (hD : D < d) (h2 : Solid pts ⟨r'', S, d''⟩) (hr'' : r ≤ r'')
    (hS : s < S) (hd'' : d ≤ d'') (min1 : ∀ q e, Solid pts ⟨q, s, e⟩ → r ≤ q → r' ≤ q)
    (max1 : ∀ v e, Solid pts ⟨r', v, e⟩ → v ≤ s → v ≤ s') (min2 : ∀ q v, Solid pts ⟨q, v, d⟩ → r ≤ q → r'' ≤ q) :
    Solid pts ⟨r, s, d⟩ := by
  have p1 : 0 < d0 - D := by linarith
  have p2 : 0 < S - s0 := by linarith
  obtain ⟨k, hk⟩ : ∃ k, k = (d0 - d) / (d0 - D) := ⟨_, rfl⟩
  obtain ⟨l, hl⟩ : ∃ l, l = (s - s0) / (S - s0) := ⟨_, rfl⟩
  have k0 : 0 ≤ k := by rw [hk]; exact div_nonneg (by linarith) p1.le
  have k1 : k < 1 := by rw [hk, div_lt_one p1]; linarith
  have l0 : 0 ≤ l := by rw [hl]; exact div_nonneg (by linarith) p2.le
  have l1 : l < 1 := by rw [hl, div_lt_one p2]; linarith
  have ek : k * (d0 - D) = d0 - d := by rw [hk]; field_simp
  have el : l * (S - s0) = s - s0 := by rw [hl]; field_simp
  have q1 := Solid.mix k k0 k1.le h0 h1
  have q2 := Solid.mix l l0 l1.le h0 h2
  simp only at q1 q2
  rw [show (1 - k) * d0 + k * D = d by linear_combination -ek] at q1
  rw [show (1 - l) * s0 + l * S = s by linear_combination el] at q2
  have a1 := min2 _ _ q1 (by nlinarith)
  have a2 := min1 _ _ q2 (by nlinarith)
  have b1 : r'' - r ≤ k * (r' - r) := by linarith
  have b2 : r' - r ≤ l * (r'' - r) := by linarith
  have c1 : r' = r := by
    by_contra hne
    have hlt : 0 < r' - r := lt_of_le_of_ne (by linarith) (fun e => hne (by linarith))
    have : k * (r' - r) < r' - r := by nlinarith
    have : l * (r'' - r) ≤ r'' - r := by nlinarith
    linarith
  subst c1
  have c2 : r'' = r' := by linarith
  subst c2
  rw [show (1 - l) * r'' + l * r'' = r'' by ring] at q2
  have e1 : s' = s := le_antisymm hs' (max1 _ _ q2 le_rfl)
  subst e1
  set e := (1 - l) * d0 + l * d'' with he
  have hde : d ≤ e := by rw [he]; nlinarith
  have p3 : 0 < e - D := by linarith
  obtain ⟨m, hm⟩ : ∃ m, m = (d - D) / (e - D) := ⟨_, rfl⟩
  have m0 : 0 ≤ m := by rw [hm]; exact div_nonneg (by linarith) p3.le
  have m1 : m ≤ 1 := by rw [hm, div_le_one p3]; linarith
  have em : m * (e - D) = d - D := by rw [hm]; field_simp
  have q3 := Solid.mix m m0 m1 h1 q2
  simp only at q3
  rw [show (1 - m) * D + m * e = d by linear_combination em, show (1 - m) * r'' + m * r'' = r'' by ring,
    show (1 - m) * s' + m * s' = s' by ring] at q3
  exact q3

/-- The five ways to a value. -/
inductive Way (g : Geometry) (x : Space) (r ps pd e : ℚ) : Prop
  | inside (h : g.interp x.samples ⟨r, ps, pd⟩ = some e)
  | max (m : ℚ) (hm : x.maxRate.limit.at g (x.maxRate.plane.project .psPd ps pd) = some m) (hr : |r - m| < x.slack)
      (h : g.plane.interp x.maxRate.energies (x.maxRate.plane.project .psPd ps pd) = some e)
  | min (m : ℚ) (hm : x.minRate.limit.at g (x.minRate.plane.project .psPd ps pd) = some m) (hr : r ≤ m + x.slack)
      (hno : ∀ m', x.maxRate.limit.at g (x.maxRate.plane.project .psPd ps pd) = some m' → ¬ |r - m'| < x.slack)
      (h : g.plane.interp x.minRate.energies (x.minRate.plane.project .psPd ps pd) = some e)
  | pd (m : ℚ) (hm : x.minPd.limit.at g (x.minPd.plane.project .ratePs r ps) = some m) (hr : pd ≤ m)
      (h : g.plane.interp x.minPd.energies (x.minPd.plane.project .ratePs r ps) = some e)
  | ps (m : ℚ) (hm : x.maxPs.limit.at g (x.maxPs.plane.project .ratePd r pd) = some m) (hr : m ≤ ps)
      (h : g.plane.interp x.maxPs.energies (x.maxPs.plane.project .ratePd r pd) = some e)

theorem evaluate_way {g : Geometry} {x : Space} {rate ps pd e : ℚ} (h : x.evaluate g rate ps pd = some e) :
    Way g x (rate / x.scale) ps pd e := by
  unfold Space.evaluate at h
  rcases orElse_some h with h | ⟨-, h⟩
  · exact .inside h
  rcases orElse_some h with h | ⟨-, h⟩
  · have below : (match x.minRate.limit.at g (x.minRate.plane.project .psPd ps pd) with
        | some m => if rate / x.scale ≤ m + x.slack then
            g.plane.interp x.minRate.energies (x.minRate.plane.project .psPd ps pd) else none
        | none => none) = some e →
        (∀ m', x.maxRate.limit.at g (x.maxRate.plane.project .psPd ps pd) = some m' → ¬ |rate / x.scale - m'| < x.slack) →
        Way g x (rate / x.scale) ps pd e := by
      intro h hno
      cases hm : x.minRate.limit.at g (x.minRate.plane.project .psPd ps pd) with
      | none => rw [hm] at h; cases h
      | some m =>
        rw [hm] at h
        dsimp only at h
        by_cases hc : rate / x.scale ≤ m + x.slack
        · rw [if_pos hc] at h; exact .min m hm hc hno h
        · rw [if_neg hc] at h; cases h
    unfold Space.outsideRate at h
    dsimp only at h
    cases hm : x.maxRate.limit.at g (x.maxRate.plane.project .psPd ps pd) with
    | none => rw [hm] at h; exact below h (by rw [hm]; intro m' e; cases e)
    | some m =>
      rw [hm] at h
      dsimp only at h
      by_cases hc : |rate / x.scale - m| < x.slack
      · rw [if_pos hc] at h; exact .max m hm hc h
      · rw [if_neg hc] at h; exact below h (by rw [hm]; intro m' e; cases e; exact hc)
  rcases orElse_some h with h | ⟨-, h⟩
  · unfold Space.outsidePd at h
    dsimp only at h
    cases hm : x.minPd.limit.at g (x.minPd.plane.project .ratePs (rate / x.scale) ps) with
    | none => rw [hm] at h; cases h
    | some m =>
      rw [hm] at h
      dsimp only at h
      by_cases hc : pd ≤ m
      · rw [if_pos hc] at h; exact .pd m hm hc h
      · rw [if_neg hc] at h; cases h
  · unfold Space.outsidePs at h
    dsimp only at h
    cases hm : x.maxPs.limit.at g (x.maxPs.plane.project .ratePd (rate / x.scale) pd) with
    | none => rw [hm] at h; cases h
    | some m =>
      rw [hm] at h
      dsimp only at h
      by_cases hc : m ≤ ps
      · rw [if_pos hc] at h; exact .ps m hm hc h
      · rw [if_neg hc] at h; cases h

theorem way_energy {g : Geometry} (hg : Promise g) {area : ℚ × ℚ → Prop} {x : Space} (hx : SpaceSpec g area x) {r ps pd e : ℚ}
    (h : Way g x r ps pd e) : ∃ z, Mix x.samples (z, e) ∧ z.s ≤ ps ∧ pd ≤ z.d ∧
      (r ≤ z.r + x.slack ∨ ∃ m, |r - m| < x.slack ∧ Solid (x.samples.map (·.1)) ⟨m, z.s, z.d⟩) := by
  have h0 := hx.slack
  cases h with
  | inside h => exact ⟨_, (hg.interp _).blend _ _ h, le_rfl, le_rfl, .inl (by simp only; linarith)⟩
  | max m hm hr h =>
    obtain ⟨v, hv⟩ := hx.maxRate.blend _ _ h
    have ha := (hx.maxRate.domain _).1 (by rw [h]; rfl)
    obtain ⟨m', e', hs⟩ := hx.maxRate.inside _ ha
    rw [hm] at e'
    cases e'
    have hserves := hx.maxRate.serves ps pd
    exact ⟨_, hv, hserves.1, hserves.2, .inr ⟨m, hr, hs⟩⟩
  | min m hm hr _ h =>
    obtain ⟨v, hv⟩ := hx.minRate.blend _ _ h
    have ha := (hx.minRate.domain _).1 (by rw [h]; rfl)
    obtain ⟨m', e', hs, hle⟩ := hx.minRate.limit _ ha
    rw [hm] at e'
    cases e'
    have := hle v (mix_solid hv)
    have hserves := hx.minRate.serves ps pd
    refine ⟨_, hv, hserves.1, hserves.2, .inl ?_⟩
    simp only [place]; linarith
  | pd m hm hr h =>
    obtain ⟨v, hv⟩ := hx.minPd.blend _ _ h
    have ha := (hx.minPd.domain _).1 (by rw [h]; rfl)
    obtain ⟨m', e', hs, hle⟩ := hx.minPd.limit _ ha
    rw [hm] at e'
    cases e'
    have := hle v (mix_solid hv)
    have hserves := hx.minPd.serves r ps
    refine ⟨_, hv, hserves.2, ?_, .inl ?_⟩
    · simp only [place]; linarith
    · have := hserves.1
      simp only [kindOf] at this
      simp only [place]; linarith
  | ps m hm hr h =>
    obtain ⟨v, hv⟩ := hx.maxPs.blend _ _ h
    have ha := (hx.maxPs.domain _).1 (by rw [h]; rfl)
    obtain ⟨m', e', hs, hle⟩ := hx.maxPs.limit _ ha
    rw [hm] at e'
    cases e'
    have := hle v (mix_solid hv)
    have hserves := hx.maxPs.serves r pd
    refine ⟨_, hv, ?_, hserves.2, .inl ?_⟩
    · simp only [place]; linarith
    · have := hserves.1
      simp only [kindOf] at this
      simp only [place]; linarith

theorem complete {g : Geometry} (hg : Promise g) {area : ℚ × ℚ → Prop} {x : Space} (hx : SpaceSpec g area x) {rate ps pd : ℚ}
    (hr : x.slack ≤ rate / x.scale) {z : P3} (hz : Solid (x.samples.map (·.1)) z) (hs : Serves (rate / x.scale) ps pd z) :
    (x.evaluate g rate ps pd).isSome := by
  rw [Option.isSome_iff_ne_none]
  intro hno
  unfold Space.evaluate at hno
  obtain ⟨n1, hno⟩ := orElse_none hno
  obtain ⟨n2, hno⟩ := orElse_none hno
  obtain ⟨n3, n4⟩ := orElse_none hno
  set r := rate / x.scale with hrdef
  have h0 := hx.slack
  obtain ⟨s1, s2, s3⟩ := hs
  have hnot : ¬ Solid (x.samples.map (·.1)) ⟨r, ps, pd⟩ := by
    intro h
    have := ((hg.interp x.samples).domain _).2 h
    rw [n1] at this; cases this
  -- the rate is above the minimum
  have hsh1 : Shadow (x.samples.map (·.1)) .rate (x.minRate.plane.project .psPd ps pd) :=
    hx.minRate.reach ps pd ⟨(z.s, z.d), ⟨z.r, hz⟩, s2, s3⟩
  obtain ⟨m, em, hm, -⟩ := hx.minRate.limit _ hsh1
  have hserves := hx.minRate.serves ps pd
  have hlt : m + x.slack < r := by
    by_contra hle
    push Not at hle
    unfold Space.outsideRate at n2
    dsimp only at n2
    rw [em] at n2
    dsimp only at n2
    rw [if_pos hle] at n2
    have hsome := (hx.minRate.domain _).2 hsh1
    cases hm' : x.maxRate.limit.at g (x.maxRate.plane.project .psPd ps pd) with
    | none => rw [hm'] at n2; dsimp only at n2; rw [n2] at hsome; cases hsome
    | some m' =>
      rw [hm'] at n2
      dsimp only at n2
      by_cases hc : |r - m'| < x.slack
      · rw [if_pos hc] at n2
        have hna : ¬ area (x.maxRate.plane.project .psPd ps pd) := by
          intro ha
          have := (hx.maxRate.domain _).2 ha
          rw [n2] at this; cases this
        have := hx.maxRate.outside _ hna
        rw [hm'] at this
        cases this
        rw [sub_zero] at hc
        have := le_abs_self r
        linarith
      · rw [if_neg hc] at n2; rw [n2] at hsome; cases hsome
  -- a point with the rate
  have hp : 0 < z.r - m := by linarith
  obtain ⟨k, hk⟩ : ∃ k, k = (r - m) / (z.r - m) := ⟨_, rfl⟩
  have k0 : 0 ≤ k := by rw [hk]; exact div_nonneg (by linarith) hp.le
  have k1 : k ≤ 1 := by rw [hk, div_le_one hp]; linarith
  have ek : k * (z.r - m) = r - m := by rw [hk]; field_simp
  have q0 := Solid.mix k k0 k1 hm hz
  simp only [place] at q0
  rw [show (1 - k) * m + k * z.r = r by linear_combination ek] at q0
  obtain ⟨t1, t2⟩ := hserves
  simp only [kindOf] at t1 t2
  -- the discharge pressure
  have hsh2 : Shadow (x.samples.map (·.1)) .pd (x.minPd.plane.project .ratePs r ps) :=
    hx.minPd.reach r ps ⟨(z.r, z.s), ⟨z.d, hz⟩, s1, s2⟩
  obtain ⟨D, eD, hD, -⟩ := hx.minPd.limit _ hsh2
  obtain ⟨u1, u2⟩ := hx.minPd.serves r ps
  have hlt2 : D < pd := by
    by_contra hle
    push Not at hle
    unfold Space.outsidePd at n3
    dsimp only at n3
    rw [eD] at n3
    dsimp only at n3
    rw [if_pos hle] at n3
    have := (hx.minPd.domain _).2 hsh2
    rw [n3] at this; cases this
  -- the suction pressure
  have hsh3 : Shadow (x.samples.map (·.1)) .ps (x.maxPs.plane.project .ratePd r pd) :=
    hx.maxPs.reach r pd ⟨(z.r, z.d), ⟨z.s, hz⟩, s1, s3⟩
  obtain ⟨S, eS, hS, -⟩ := hx.maxPs.limit _ hsh3
  obtain ⟨v1, v2⟩ := hx.maxPs.serves r pd
  have hlt3 : ps < S := by
    by_contra hle
    push Not at hle
    unfold Space.outsidePs at n4
    dsimp only at n4
    rw [eS] at n4
    dsimp only at n4
    rw [if_pos hle] at n4
    have := (hx.maxPs.domain _).2 hsh3
    rw [n4] at this; cases this
  refine hnot (between q0 (by nlinarith) (by nlinarith) hD u1 u2 hlt2 hS v1 hlt3 v2 ?_ ?_ ?_)
  · intro q e hq hle
    exact hx.minPd.first r ps (q, ps) ⟨e, hq⟩ ⟨hle, le_rfl⟩ rfl
  · intro v e hv hle
    have := hx.minPd.second r ps ((x.minPd.plane.project .ratePs r ps).1, v) ⟨e, hv⟩ ⟨u1, hle⟩ rfl
    simp only [kindOf, C81.signOf, C81.axisOf, Planar.Axis.other, Planar.coord] at this
    linarith
  · intro q v hq hle
    exact hx.maxPs.first r pd (q, pd) ⟨v, hq⟩ ⟨hle, le_rfl⟩ rfl

/-! ## Scaling the rates -/

theorem scaled_points (k : ℤ) (rows : List (ℚ × ℚ × ℚ × ℚ)) :
    (scaled k rows).map (·.1) = (pointsOf rows).map fun x => ⟨x.1.r / k, x.1.s, x.1.d⟩ := by
  simp only [scaled, pointsOf, List.map_map]; rfl

theorem solid_scale {pts qs : List P3} {k : ℚ} (h : ∀ p ∈ pts, (⟨p.r * k, p.s, p.d⟩ : P3) ∈ qs) {z : P3} (hz : Solid pts z) :
    Solid qs ⟨z.r * k, z.s, z.d⟩ := by
  induction hz with
  | sample hp => exact .sample (h _ hp)
  | @mix p q l h0 h1 _ _ ih1 ih2 =>
    have := Solid.mix l h0 h1 ih1 ih2
    simp only at this ⊢
    rw [show ((1 - l) * p.r + l * q.r) * k = (1 - l) * (p.r * k) + l * (q.r * k) by ring]
    exact this

theorem mix_scale {l l' : List (P3 × ℚ)} {k : ℚ} (h : ∀ p ∈ l, ((⟨p.1.r * k, p.1.s, p.1.d⟩ : P3), p.2) ∈ l') {z : P3 × ℚ}
    (hz : Mix l z) : Mix l' (⟨z.1.r * k, z.1.s, z.1.d⟩, z.2) := by
  induction hz with
  | sample hp => exact .sample (h _ hp)
  | @mix p q m h0 h1 _ _ ih1 ih2 =>
    have := Mix.mix m h0 h1 ih1 ih2
    simp only at this ⊢
    rw [show ((1 - m) * p.1.r + m * q.1.r) * k = (1 - m) * (p.1.r * k) + m * (q.1.r * k) by ring]
    exact this

section
variable {k : ℤ} {rows : List (ℚ × ℚ × ℚ × ℚ)}

theorem unscale_mix (hk : 0 < k) {z : P3} {e : ℚ} (h : Mix (scaled k rows) (z, e)) : Mix (pointsOf rows) (⟨z.r * k, z.s, z.d⟩, e) := by
  refine mix_scale (l := scaled k rows) ?_ h
  intro p hp
  have hk' : (k : ℚ) ≠ 0 := by exact_mod_cast hk.ne'
  obtain ⟨x, hx, rfl⟩ := List.mem_map.1 hp
  refine List.mem_map.2 ⟨x, hx, ?_⟩
  simp only [div_mul_cancel₀ _ hk']

theorem scale_iff (hk : 0 < k) (r s d : ℚ) : Solid ((scaled k rows).map (·.1)) ⟨r / k, s, d⟩ ↔ Covers rows ⟨r, s, d⟩ := by
  have hk' : (k : ℚ) ≠ 0 := by exact_mod_cast hk.ne'
  rw [scaled_points]
  constructor
  · intro h
    have := solid_scale (k := k) (qs := (pointsOf rows).map (·.1)) ?_ h
    · simp only [div_mul_cancel₀ _ hk'] at this
      exact this
    · intro p hp
      obtain ⟨x, hx, rfl⟩ := List.mem_map.1 hp
      refine List.mem_map.2 ⟨x, hx, ?_⟩
      simp only [div_mul_cancel₀ _ hk']
  · intro h
    have := solid_scale (k := 1 / k) (qs := (pointsOf rows).map fun x => (⟨x.1.r / k, x.1.s, x.1.d⟩ : P3)) ?_ h
    · simpa only [mul_one_div] using this
    · intro p hp
      obtain ⟨x, hx, rfl⟩ := List.mem_map.1 hp
      refine List.mem_map.2 ⟨x, hx, ?_⟩
      simp only [mul_one_div]

theorem scale_round (hk : 0 < k) (hr : C101.Round ((pointsOf rows).map (·.1))) : C101.Round ((scaled k rows).map (·.1)) := by
  have hk' : (0 : ℚ) < k := by exact_mod_cast hk
  rw [scaled_points]
  intro m hm a b c habc
  have hM : C101.Middle ((pointsOf rows).map (·.1)) ⟨m.r * k, m.s, m.d⟩ := by
    intro ax
    obtain ⟨l, hl, u, hu, hb, e⟩ := hm ax
    obtain ⟨l, hl', rfl⟩ := List.mem_map.1 hl
    obtain ⟨u, hu', rfl⟩ := List.mem_map.1 hu
    refine ⟨l.1, List.mem_map_of_mem hl', u.1, List.mem_map_of_mem hu', ?_, ?_⟩
    · intro p hp
      obtain ⟨x, hx, rfl⟩ := List.mem_map.1 hp
      have := hb ⟨x.1.r / k, x.1.s, x.1.d⟩ (List.mem_map.2 ⟨x, hx, rfl⟩)
      cases ax with
      | rate =>
        simp only [P3.coord] at this ⊢
        exact ⟨(div_le_div_iff_of_pos_right hk').1 this.1, (div_le_div_iff_of_pos_right hk').1 this.2⟩
      | ps => exact this
      | pd => exact this
    · cases ax with
      | rate => simp only [P3.coord] at e ⊢; rw [e]; field_simp
      | ps => exact e
      | pd => exact e
  obtain ⟨p, hp, hlt⟩ := hr _ hM (a / k) b c (by
    rcases habc with h | h | h
    · exact .inl (div_ne_zero h hk'.ne')
    · exact .inr (.inl h)
    · exact .inr (.inr h))
  obtain ⟨x, hx, rfl⟩ := List.mem_map.1 hp
  refine ⟨_, List.mem_map.2 ⟨x, hx, rfl⟩, ?_⟩
  simp only at hlt ⊢
  rw [show a / k * (x.1.r - m.r * k) = a * (x.1.r / k - m.r) by field_simp] at hlt
  exact hlt

end

theorem mean_nonneg {l : List ℚ} (h : ∀ x ∈ l, 0 ≤ x) : 0 ≤ mean l := div_nonneg (List.sum_nonneg h) (by positivity)

theorem ratio_nonneg {rows : List (ℚ × ℚ × ℚ × ℚ)} (h : Nonnegative rows) :
    0 ≤ 2 * mean (rows.map (·.1)) / (mean (rows.map (·.2.1)) + mean (rows.map (·.2.2.1))) := by
  have h1 : 0 ≤ mean (rows.map (·.1)) := mean_nonneg fun x hx => by
    obtain ⟨y, hy, rfl⟩ := List.mem_map.1 hx; exact (h y hy).1
  have h2 : 0 ≤ mean (rows.map (·.2.1)) := mean_nonneg fun x hx => by
    obtain ⟨y, hy, rfl⟩ := List.mem_map.1 hx; exact (h y hy).2.1
  have h3 : 0 ≤ mean (rows.map (·.2.2.1)) := mean_nonneg fun x hx => by
    obtain ⟨y, hy, rfl⟩ := List.mem_map.1 hx; exact (h y hy).2.2
  positivity

/-- What is known about a compressor that was created. -/
theorem create_spec {g : Geometry} (hg : Promise g) {rows : List (ℚ × ℚ × ℚ × ℚ)} (hn : Nonnegative rows)
    (hr : C101.Round ((pointsOf rows).map (·.1))) {x : Space} (hx : create g rows = .ok x) :
    0 < x.scale ∧ x.samples = scaled x.scale rows ∧ (∀ t, Tolerance rows t → x.slack = t / x.scale) ∧
      ∃ area, SpaceSpec g area x := by
  unfold create at hx
  obtain ⟨k, ek, hx⟩ := C80.bind_ok hx
  by_cases hk : k = 0
  · rw [if_pos hk] at hx; cases hx
  rw [if_neg hk] at hx
  obtain ⟨h, eh, hx⟩ := C80.bind_ok hx
  obtain ⟨minRate, e1, hx⟩ := C80.bind_ok hx
  obtain ⟨maxRate, e2, hx⟩ := C80.bind_ok hx
  obtain ⟨minPd, e3, hx⟩ := C80.bind_ok hx
  obtain ⟨maxPs, e4, hx⟩ := C80.bind_ok hx
  have hx := (Except.ok.inj hx).symm
  subst hx
  have hkp : 0 < k := by
    unfold scaleFactor at ek
    dsimp only at ek
    split at ek
    · cases ek
    · have ek := Except.ok.inj ek
      have : 0 ≤ k := by rw [← ek]; exact C85.half_nonneg (ratio_nonneg hn)
      omega
  have hk' : (0 : ℚ) < k := by exact_mod_cast hkp
  have hh := hg.hull _ _ eh
  have hround := scale_round hkp hr
  have hne : h.points ≠ [] := by
    rw [hh.points]
    intro e
    have hnil : rows = [] := by simpa [scaled] using e
    subst hnil
    unfold scaleFactor at ek
    simp at ek
  obtain ⟨⟨u, hu, eu⟩, hub⟩ := C101.maxBound_spec hne .rate
  obtain ⟨⟨l, hl, el⟩, hlb⟩ := C101.minBound_spec hne .rate
  rw [hh.points] at hu hl hub hlb
  rw [← eu] at hub
  rw [← el] at hlb
  refine ⟨hkp, rfl, ?_, C81.Area ((h.pointsOf h.upperMonotonic).map (rest .rate)), ?_⟩
  · rintro t ⟨l', hl', u', hu', hb, rfl⟩
    simp only [Space.slack]
    rw [← eu, ← el]
    rw [scaled_points] at hu hl hub hlb
    obtain ⟨U, hU, rfl⟩ := List.mem_map.1 hu
    obtain ⟨L, hL, rfl⟩ := List.mem_map.1 hl
    obtain ⟨U, hU', rfl⟩ := List.mem_map.1 hU
    obtain ⟨L, hL', rfl⟩ := List.mem_map.1 hL
    have a1 := hub ⟨u'.1 / k, u'.2.1, u'.2.2.1⟩ (List.mem_map.2 ⟨_, List.mem_map.2 ⟨u', hu', rfl⟩, rfl⟩)
    have a2 := hlb ⟨l'.1 / k, l'.2.1, l'.2.2.1⟩ (List.mem_map.2 ⟨_, List.mem_map.2 ⟨l', hl', rfl⟩, rfl⟩)
    simp only [P3.coord] at a1 a2 ⊢
    rw [div_le_div_iff_of_pos_right hk'] at a1 a2
    have b1 := (hb U hU').2
    have b2 := (hb L hL').1
    have c1 : U.1 = u'.1 := le_antisymm b1 a1
    have c2 : L.1 = l'.1 := le_antisymm a2 b2
    rw [c1, c2]
    field_simp
  · refine ⟨side_spec hg hh hround (.inl rfl) (C101.mem_lower hh hround .rate) e1, max_spec hg hh hround e2,
      side_spec hg hh hround (.inl rfl) (C101.mem_lower hh hround .pd) e3,
      side_spec hg hh hround (.inr rfl) (C101.mem_upper hh hround .ps) e4, ?_⟩
    simp only [Space.slack]
    have := hub l hl
    rw [← eu, ← el]
    have : 0 ≤ u.coord .rate - l.coord .rate := by linarith
    positivity

theorem tolerance_exists {rows : List (ℚ × ℚ × ℚ × ℚ)} (h : rows ≠ []) : ∃ t, Tolerance rows t := by
  obtain ⟨u, hu, hub⟩ := C81.exists_greatest (fun x : ℚ × ℚ × ℚ × ℚ => x.1) h
  obtain ⟨l, hl, hlb⟩ := C81.exists_greatest (fun x : ℚ × ℚ × ℚ × ℚ => -x.1) h
  exact ⟨_, l, hl, u, hu, fun x hx => ⟨by have := hlb x hx; linarith, hub x hx⟩, rfl⟩

/-! ## Theorems -/

/-- **C102**: inside the sampled space there is a value, and it is a blend of the samples that blends to the operating
point itself. -/
theorem C102_inside (g : Geometry) (hg : Promise g) (rows : List (ℚ × ℚ × ℚ × ℚ)) (hn : Nonnegative rows)
    (hr : C101.Round ((pointsOf rows).map (·.1))) (x : Space) (hx : create g rows = .ok x) (rate ps pd : ℚ)
    (h : Covers rows ⟨rate, ps, pd⟩) :
    ∃ e, x.evaluate g rate ps pd = some e ∧ Mix (pointsOf rows) (⟨rate, ps, pd⟩, e) := by
  obtain ⟨hk, hs, -, -⟩ := create_spec hg hn hr hx
  have hk' : (x.scale : ℚ) ≠ 0 := by exact_mod_cast hk.ne'
  rw [← scale_iff hk, ← hs] at h
  obtain ⟨e, he⟩ := Option.isSome_iff_exists.1 (((hg.interp x.samples).domain _).2 h)
  refine ⟨e, ?_, ?_⟩
  · unfold Space.evaluate
    dsimp only
    rw [he]; rfl
  · have := (hg.interp x.samples).blend _ _ he
    rw [hs] at this
    have := unscale_mix hk this
    simpa only [div_mul_cancel₀ _ hk'] using this

/-- **C102**: if some operating point in the sampled space does what is asked for, and the rate is at least the tolerance,
there is a value. -/
theorem C102_valid (g : Geometry) (hg : Promise g) (rows : List (ℚ × ℚ × ℚ × ℚ)) (hn : Nonnegative rows)
    (hr : C101.Round ((pointsOf rows).map (·.1))) (x : Space) (hx : create g rows = .ok x) (t : ℚ) (ht : Tolerance rows t)
    (rate ps pd : ℚ) (hrate : t ≤ rate) (h : ∃ z, Covers rows z ∧ Serves rate ps pd z) :
    (x.evaluate g rate ps pd).isSome := by
  obtain ⟨hk, hs, hslack, area, hspec⟩ := create_spec hg hn hr hx
  have hk' : (0 : ℚ) < x.scale := by exact_mod_cast hk
  obtain ⟨z, hz, s1, s2, s3⟩ := h
  refine complete hg hspec (z := ⟨z.r / x.scale, z.s, z.d⟩) ?_ ?_ ⟨?_, s2, s3⟩
  · rw [hslack t ht]; exact (div_le_div_iff_of_pos_right hk').2 hrate
  · rw [hs]; exact (scale_iff hk _ _ _).2 hz
  · exact (div_le_div_iff_of_pos_right hk').2 s1

/-- **C102**: a value is the energy of a blend of samples that has at most the suction pressure and at least the discharge
pressure, and at least the rate up to the tolerance; or the rate is within the tolerance of a rate that is possible at the
pressures of the blend. -/
theorem C102_energy (g : Geometry) (hg : Promise g) (rows : List (ℚ × ℚ × ℚ × ℚ)) (hn : Nonnegative rows)
    (hr : C101.Round ((pointsOf rows).map (·.1))) (x : Space) (hx : create g rows = .ok x) (t : ℚ) (ht : Tolerance rows t)
    (rate ps pd e : ℚ) (he : x.evaluate g rate ps pd = some e) :
    ∃ z, Mix (pointsOf rows) (z, e) ∧ z.s ≤ ps ∧ pd ≤ z.d ∧
      (rate ≤ z.r + t ∨ ∃ m, |rate - m| < t ∧ Covers rows ⟨m, z.s, z.d⟩) := by
  obtain ⟨hk, hs, hslack, area, hspec⟩ := create_spec hg hn hr hx
  have hk' : (0 : ℚ) < x.scale := by exact_mod_cast hk
  have et : t = x.slack * x.scale := by rw [hslack t ht]; field_simp
  obtain ⟨z, h1, h2, h3, h4⟩ := way_energy hg hspec (evaluate_way he)
  refine ⟨⟨z.r * x.scale, z.s, z.d⟩, unscale_mix hk (hs ▸ h1), h2, h3, ?_⟩
  rcases h4 with h4 | ⟨m, h4, h5⟩
  · left
    rw [div_le_iff₀ hk'] at h4
    rw [et]; simp only; linarith
  · right
    refine ⟨m * x.scale, ?_, ?_⟩
    · have : rate - m * x.scale = (rate / x.scale - m) * x.scale := by field_simp
      rw [this, abs_mul, abs_of_pos hk', et]
      exact mul_lt_mul_of_pos_right h4 hk'
    · rw [hs] at h5
      rw [← scale_iff hk]
      rwa [mul_div_cancel_right₀ _ hk'.ne']

/-- **C102**: where there is a value, some operating point in the sampled space does what is asked for, up to the
tolerance in the rate. -/
theorem C102_served (g : Geometry) (hg : Promise g) (rows : List (ℚ × ℚ × ℚ × ℚ)) (hn : Nonnegative rows)
    (hr : C101.Round ((pointsOf rows).map (·.1))) (x : Space) (hx : create g rows = .ok x) (t : ℚ) (ht : Tolerance rows t)
    (rate ps pd : ℚ) (h : (x.evaluate g rate ps pd).isSome) : ∃ z, Covers rows z ∧ Serves (rate - t) ps pd z := by
  obtain ⟨e, he⟩ := Option.isSome_iff_exists.1 h
  obtain ⟨z, h1, h2, h3, h4⟩ := C102_energy g hg rows hn hr x hx t ht rate ps pd e he
  rcases h4 with h4 | ⟨m, h4, h5⟩
  · exact ⟨z, mix_solid h1, by linarith, h2, h3⟩
  · refine ⟨_, h5, ?_, h2, h3⟩
    have := le_abs_self (rate - m)
    simp only; linarith

/-- **C102**: a value is never outside the range of the sampled energies. -/
theorem C102_range (g : Geometry) (hg : Promise g) (rows : List (ℚ × ℚ × ℚ × ℚ)) (hn : Nonnegative rows)
    (hr : C101.Round ((pointsOf rows).map (·.1))) (x : Space) (hx : create g rows = .ok x) (lo hi : ℚ)
    (hb : ∀ r ∈ rows, lo ≤ r.2.2.2 ∧ r.2.2.2 ≤ hi) (rate ps pd e : ℚ) (he : x.evaluate g rate ps pd = some e) :
    lo ≤ e ∧ e ≤ hi := by
  have hne : rows ≠ [] := by
    rintro rfl
    cases hx
  obtain ⟨t, ht⟩ := tolerance_exists hne
  obtain ⟨z, h1, -⟩ := C102_energy g hg rows hn hr x hx t ht rate ps pd e he
  have : ∀ y, Mix (pointsOf rows) y → lo ≤ y.2 ∧ y.2 ≤ hi := by
    intro y hy
    induction hy with
    | sample hp =>
      obtain ⟨r, hr, rfl⟩ := List.mem_map.1 hp
      exact hb r hr
    | mix k h0 h1 _ _ ih1 ih2 =>
      constructor
      · nlinarith [ih1.1, ih2.1]
      · nlinarith [ih1.2, ih2.2]
  exact this _ h1

/-- **C102**: the maximum rate is zero, or some operating point in the sampled space has it with at most the suction
pressure and at least the discharge pressure, and then there is a value for it. -/
theorem C102_max_rate (g : Geometry) (hg : Promise g) (rows : List (ℚ × ℚ × ℚ × ℚ)) (hn : Nonnegative rows)
    (hr : C101.Round ((pointsOf rows).map (·.1))) (x : Space) (hx : create g rows = .ok x) (t : ℚ) (ht : Tolerance rows t)
    (hpos : 0 < t) (ps pd : ℚ) : ∃ m, x.getMaxRate g ps pd = some m ∧
      (m = 0 ∨ (∃ z, Covers rows z ∧ z.r = m ∧ z.s ≤ ps ∧ pd ≤ z.d) ∧ (x.evaluate g m ps pd).isSome) := by
  obtain ⟨hk, hs, hslack, area, hspec⟩ := create_spec hg hn hr hx
  have hk' : (0 : ℚ) < x.scale := by exact_mod_cast hk
  by_cases ha : area (x.maxRate.plane.project .psPd ps pd)
  · obtain ⟨m, em, hm⟩ := hspec.maxRate.inside _ ha
    refine ⟨m * x.scale, by unfold Space.getMaxRate; rw [em]; rfl, .inr ⟨?_, ?_⟩⟩
    · have hserves := hspec.maxRate.serves ps pd
      refine ⟨⟨m * x.scale, _, _⟩, ?_, rfl, hserves.1, hserves.2⟩
      rw [hs] at hm
      rw [← scale_iff hk, mul_div_cancel_right₀ _ hk'.ne']
      exact hm
    · rw [Option.isSome_iff_ne_none]
      intro hno
      unfold Space.evaluate at hno
      obtain ⟨-, hno⟩ := orElse_none hno
      obtain ⟨n2, -⟩ := orElse_none hno
      unfold Space.outsideRate at n2
      dsimp only at n2
      rw [em] at n2
      dsimp only at n2
      rw [mul_div_cancel_right₀ _ hk'.ne', sub_self, abs_zero, hslack t ht, if_pos (div_pos hpos hk')] at n2
      have := (hspec.maxRate.domain _).2 ha
      rw [n2] at this; cases this
  · refine ⟨0, ?_, .inl rfl⟩
    unfold Space.getMaxRate
    rw [hspec.maxRate.outside _ ha]
    simp

/-- **C102** (finding): a table whose mean rate is at most a quarter of the sum of the mean pressures is rejected: the
scale factor is rounded to zero. -/
theorem C102_scale (g : Geometry) (rows : List (ℚ × ℚ × ℚ × ℚ)) (hn : Nonnegative rows) (hne : rows ≠ [])
    (hp : 0 < mean (rows.map (·.2.1)) + mean (rows.map (·.2.2.1)))
    (h : 4 * mean (rows.map (·.1)) ≤ mean (rows.map (·.2.1)) + mean (rows.map (·.2.2.1))) :
    create g rows = .error .hull := by
  have hk : scaleFactor rows = .ok 0 := by
    unfold scaleFactor
    dsimp only
    rw [if_neg (by rintro (h | h); exacts [hne h, hp.ne' h])]
    congr 1
    rw [C85.half_zero (ratio_nonneg hn), div_le_iff₀ hp]
    linarith
  unfold create
  rw [hk]
  rfl

/-! ## A table with four points -/

/-- Four operating points: rate, suction pressure, discharge pressure, energy. The energy is one more than the sum of the
pressures. -/
def slope : List (ℚ × ℚ × ℚ × ℚ) := [(0, 0, 0, 1), (3, 1, 5, 7), (4, 2, 0, 3), (3, 2, 8, 11)]

/-- The four points. -/
def slopePoints : List P3 := [⟨0, 0, 0⟩, ⟨3, 1, 5⟩, ⟨4, 2, 0⟩, ⟨3, 2, 8⟩]

/-- Their hull. -/
def slopeHull : Hull :=
  ⟨slopePoints, [⟨1, 2, 3, 8, -3, 1, -26⟩, ⟨0, 2, 3, -16, 32, -2, 0⟩, ⟨0, 1, 3, -2, -9, 3, 0⟩, ⟨0, 1, 2, 10, -20, -2, 0⟩]⟩

theorem slope_points : (pointsOf slope).map (·.1) = slopePoints := rfl

theorem slope_hull : C101.IsHull slopePoints slopeHull := by
  refine C101.tetra (m := 1 / 26) (by norm_num) ⟨rfl, rfl, rfl⟩ ⟨rfl, rfl, rfl⟩ ⟨rfl, rfl, rfl⟩ ⟨rfl, rfl, rfl⟩ ?_ ?_
    ?_ ?_ ?_ ?_ ⟨1, by norm_num, ?_⟩ ⟨-1, by norm_num, ?_⟩ ⟨1, by norm_num, ?_⟩ ⟨-1, by norm_num, ?_⟩
  · intro z; unfold C101.val; ring
  · intro z; unfold C101.val; refine ⟨?_, ?_, ?_⟩ <;> ring
  all_goals (try unfold C101.val); norm_num

theorem slope_round : C101.Round ((pointsOf slope).map (·.1)) := by
  rw [slope_points]
  intro m hm a b c habc
  have : m = ⟨2, 1, 4⟩ := by
    refine C101.middle_unique hm ?_
    intro ax
    cases ax
    · exact ⟨⟨0, 0, 0⟩, by simp [slopePoints], ⟨4, 2, 0⟩, by simp [slopePoints], by norm_num [slopePoints, P3.coord], by norm_num [P3.coord]⟩
    · exact ⟨⟨0, 0, 0⟩, by simp [slopePoints], ⟨4, 2, 0⟩, by simp [slopePoints], by norm_num [slopePoints, P3.coord], by norm_num [P3.coord]⟩
    · exact ⟨⟨0, 0, 0⟩, by simp [slopePoints], ⟨3, 2, 8⟩, by simp [slopePoints], by norm_num [slopePoints, P3.coord], by norm_num [P3.coord]⟩
  subst this
  by_contra hno
  push Not at hno
  have h1 := hno ⟨0, 0, 0⟩ (by simp [slopePoints])
  have h2 := hno ⟨3, 1, 5⟩ (by simp [slopePoints])
  have h3 := hno ⟨4, 2, 0⟩ (by simp [slopePoints])
  have h4 := hno ⟨3, 2, 8⟩ (by simp [slopePoints])
  simp only at h1 h2 h3 h4
  have ha : a = 0 := by linarith
  have hb : b = 0 := by linarith
  have hc : c = 0 := by linarith
  rcases habc with h | h | h
  · exact h ha
  · exact h hb
  · exact h hc

theorem slope_nonnegative : Nonnegative slope := by unfold Nonnegative; decide +kernel

theorem slope_tolerance : Tolerance slope (4 / 10000) :=
  ⟨(0, 0, 0, 1), by simp [slope], (4, 2, 0, 3), by simp [slope], by decide +kernel, by norm_num⟩

/-- Suction and discharge pressures of all points. -/
def hullA : Planar.Hull :=
  ⟨[(0, 0), (1, 5), (2, 0), (2, 8)], [⟨0, 2, 0, -1, 0⟩, ⟨2, 3, 1, 0, -2⟩, ⟨3, 1, -3, 1, -2⟩, ⟨1, 0, -5, 1, 0⟩]⟩

/-- Suction and discharge pressures of the points for the maximum rate. -/
def hullB : Planar.Hull := ⟨[(1, 5), (2, 0), (2, 8)], [⟨0, 1, -5, -1, 10⟩, ⟨1, 2, 1, 0, -2⟩, ⟨2, 0, -3, 1, -2⟩]⟩

/-- Rates and suction pressures of all points. -/
def hullC : Planar.Hull :=
  ⟨[(0, 0), (3, 1), (4, 2), (3, 2)], [⟨0, 1, 1, -3, 0⟩, ⟨1, 2, 1, -1, -2⟩, ⟨2, 3, 0, 1, -2⟩, ⟨3, 0, -2, 3, 0⟩]⟩

/-- Rates and discharge pressures of the points for the maximum suction pressure. -/
def hullD : Planar.Hull := ⟨[(0, 0), (4, 0), (3, 8)], [⟨0, 1, 0, -1, 0⟩, ⟨1, 2, 8, 1, -32⟩, ⟨2, 0, -8, 3, 0⟩]⟩

theorem bounded {h : Planar.Hull} (hb : ∀ f ∈ h.facets, ∀ p ∈ h.points, C81.val f p ≤ 0) {z : ℚ × ℚ} (hz : C81.Area h.points z) :
    ∀ f ∈ h.facets, C81.val f z ≤ 0 := by
  intro f hf
  have := C81.area_bound (a := f.a) (b := f.b) (c := -f.c) (fun p hp => by have := hb f hf p hp; unfold C81.val at this; linarith) hz
  unfold C81.val; linarith

/-- A facet between two points, on which every point of the area is between the two. -/
theorem edge {h : Planar.Hull} {f : Planar.Facet} (hf : f ∈ h.facets) {p q : ℚ × ℚ} (he : C81.Ends h f p q) {z : ℚ × ℚ} (k : ℚ)
    (h0 : 0 ≤ k) (h1 : k ≤ 1) (e1 : z.1 = (1 - k) * p.1 + k * q.1) (e2 : z.2 = (1 - k) * p.2 + k * q.2) :
    ∃ g ∈ h.facets, ∃ m : ℚ, 0 < m ∧ g.a = m * f.a ∧ g.b = m * f.b ∧
      ∃ p q, C81.Ends h g p q ∧ ∃ k : ℚ, 0 ≤ k ∧ k ≤ 1 ∧ z = ((1 - k) * p.1 + k * q.1, (1 - k) * p.2 + k * q.2) :=
  ⟨f, hf, 1, one_pos, (one_mul _).symm, (one_mul _).symm, p, q, he, k, h0, h1, Prod.ext e1 e2⟩

theorem hullA_ok : C81.IsHull [(0, 0), (1, 5), (2, 0), (2, 8)] hullA := by
  have hb : ∀ {z}, C81.Area [(0, 0), (1, 5), (2, 0), (2, 8)] z → ∀ f ∈ hullA.facets, C81.val f z ≤ 0 :=
    fun hz => bounded (h := hullA) (by decide +kernel) hz
  refine ⟨rfl, fun z => ⟨hb, fun hz => ?_⟩, ?_, ?_⟩
  · simp only [hullA, List.forall_mem_cons, C81.val] at hz
    obtain ⟨h1, h2, h3, h4, -⟩ := hz
    rcases le_total z.2 (4 * z.1) with hc | hc
    · refine C81.tri (A := (0, 0)) (B := (2, 0)) (C := (2, 8)) (u := 1 - z.1 / 2) (v := z.1 / 2 - z.2 / 8) (w := z.2 / 8)
        (by simp) (by simp) (by simp) (by linarith) (by linarith) (by linarith) (by ring) ?_
      ext <;> simp only <;> ring
    · refine C81.tri (A := (0, 0)) (B := (1, 5)) (C := (2, 8)) (u := (2 + 3 * z.1 - z.2) / 2) (v := z.2 - 4 * z.1)
        (w := (5 * z.1 - z.2) / 2)
        (by simp) (by simp) (by simp) (by linarith) (by linarith) (by linarith) (by ring) ?_
      ext <;> simp only <;> ring
  · intro f hf
    simp only [hullA, List.mem_cons, List.not_mem_nil, or_false] at hf
    rcases hf with rfl | rfl | rfl | rfl
    · exact ⟨(0, 0), (2, 0), ⟨rfl, rfl⟩, by decide +kernel⟩
    · exact ⟨(2, 0), (2, 8), ⟨rfl, rfl⟩, by decide +kernel⟩
    · exact ⟨(2, 8), (1, 5), ⟨rfl, rfl⟩, by decide +kernel⟩
    · exact ⟨(1, 5), (0, 0), ⟨rfl, rfl⟩, by decide +kernel⟩
  · intro f hf z hz hv
    have hz := hb hz
    simp only [hullA, List.forall_mem_cons, C81.val] at hz
    obtain ⟨h1, h2, h3, h4, -⟩ := hz
    have hf' := hf
    simp only [hullA, List.mem_cons, List.not_mem_nil, or_false] at hf
    rcases hf with rfl | rfl | rfl | rfl <;> simp only [C81.val] at hv
    · refine edge hf' (p := (0, 0)) (q := (2, 0)) ⟨rfl, rfl⟩ (z.1 / 2) ?_ ?_ ?_ ?_ <;> (try simp only) <;> linarith
    · refine edge hf' (p := (2, 0)) (q := (2, 8)) ⟨rfl, rfl⟩ (z.2 / 8) ?_ ?_ ?_ ?_ <;> (try simp only) <;> linarith
    · refine edge hf' (p := (2, 8)) (q := (1, 5)) ⟨rfl, rfl⟩ (2 - z.1) ?_ ?_ ?_ ?_ <;> (try simp only) <;> linarith
    · refine edge hf' (p := (1, 5)) (q := (0, 0)) ⟨rfl, rfl⟩ (1 - z.1) ?_ ?_ ?_ ?_ <;> (try simp only) <;> linarith

theorem hullB_ok : C81.IsHull [(1, 5), (2, 0), (2, 8)] hullB := by
  have hb : ∀ {z}, C81.Area [(1, 5), (2, 0), (2, 8)] z → ∀ f ∈ hullB.facets, C81.val f z ≤ 0 :=
    fun hz => bounded (h := hullB) (by decide +kernel) hz
  refine ⟨rfl, fun z => ⟨hb, fun hz => ?_⟩, ?_, ?_⟩
  · simp only [hullB, List.forall_mem_cons, C81.val] at hz
    obtain ⟨h1, h2, h3, -⟩ := hz
    refine C81.tri (A := (1, 5)) (B := (2, 0)) (C := (2, 8)) (u := 2 - z.1) (v := (2 + 3 * z.1 - z.2) / 8)
      (w := (z.2 + 5 * z.1 - 10) / 8)
      (by simp) (by simp) (by simp) (by linarith) (by linarith) (by linarith) (by ring) ?_
    ext <;> simp only <;> ring
  · intro f hf
    simp only [hullB, List.mem_cons, List.not_mem_nil, or_false] at hf
    rcases hf with rfl | rfl | rfl
    · exact ⟨(1, 5), (2, 0), ⟨rfl, rfl⟩, by decide +kernel⟩
    · exact ⟨(2, 0), (2, 8), ⟨rfl, rfl⟩, by decide +kernel⟩
    · exact ⟨(2, 8), (1, 5), ⟨rfl, rfl⟩, by decide +kernel⟩
  · intro f hf z hz hv
    have hz := hb hz
    simp only [hullB, List.forall_mem_cons, C81.val] at hz
    obtain ⟨h1, h2, h3, -⟩ := hz
    have hf' := hf
    simp only [hullB, List.mem_cons, List.not_mem_nil, or_false] at hf
    rcases hf with rfl | rfl | rfl <;> simp only [C81.val] at hv
    · refine edge hf' (p := (1, 5)) (q := (2, 0)) ⟨rfl, rfl⟩ (z.1 - 1) ?_ ?_ ?_ ?_ <;> (try simp only) <;> linarith
    · refine edge hf' (p := (2, 0)) (q := (2, 8)) ⟨rfl, rfl⟩ (z.2 / 8) ?_ ?_ ?_ ?_ <;> (try simp only) <;> linarith
    · refine edge hf' (p := (2, 8)) (q := (1, 5)) ⟨rfl, rfl⟩ (2 - z.1) ?_ ?_ ?_ ?_ <;> (try simp only) <;> linarith

theorem hullC_ok : C81.IsHull [(0, 0), (3, 1), (4, 2), (3, 2)] hullC := by
  have hb : ∀ {z}, C81.Area [(0, 0), (3, 1), (4, 2), (3, 2)] z → ∀ f ∈ hullC.facets, C81.val f z ≤ 0 :=
    fun hz => bounded (h := hullC) (by decide +kernel) hz
  refine ⟨rfl, fun z => ⟨hb, fun hz => ?_⟩, ?_, ?_⟩
  · simp only [hullC, List.forall_mem_cons, C81.val] at hz
    obtain ⟨h1, h2, h3, h4, -⟩ := hz
    rcases le_total (2 * z.2) z.1 with hc | hc
    · refine C81.tri (A := (0, 0)) (B := (3, 1)) (C := (4, 2)) (u := (2 - z.1 + z.2) / 2) (v := z.1 - 2 * z.2)
        (w := (3 * z.2 - z.1) / 2)
        (by simp) (by simp) (by simp) (by linarith) (by linarith) (by linarith) (by ring) ?_
      ext <;> simp only <;> ring
    · refine C81.tri (A := (0, 0)) (B := (4, 2)) (C := (3, 2)) (u := 1 - z.2 / 2) (v := z.1 - 3 * z.2 / 2) (w := 2 * z.2 - z.1)
        (by simp) (by simp) (by simp) (by linarith) (by linarith) (by linarith) (by ring) ?_
      ext <;> simp only <;> ring
  · intro f hf
    simp only [hullC, List.mem_cons, List.not_mem_nil, or_false] at hf
    rcases hf with rfl | rfl | rfl | rfl
    · exact ⟨(0, 0), (3, 1), ⟨rfl, rfl⟩, by decide +kernel⟩
    · exact ⟨(3, 1), (4, 2), ⟨rfl, rfl⟩, by decide +kernel⟩
    · exact ⟨(4, 2), (3, 2), ⟨rfl, rfl⟩, by decide +kernel⟩
    · exact ⟨(3, 2), (0, 0), ⟨rfl, rfl⟩, by decide +kernel⟩
  · intro f hf z hz hv
    have hz := hb hz
    simp only [hullC, List.forall_mem_cons, C81.val] at hz
    obtain ⟨h1, h2, h3, h4, -⟩ := hz
    have hf' := hf
    simp only [hullC, List.mem_cons, List.not_mem_nil, or_false] at hf
    rcases hf with rfl | rfl | rfl | rfl <;> simp only [C81.val] at hv
    · refine edge hf' (p := (0, 0)) (q := (3, 1)) ⟨rfl, rfl⟩ z.2 ?_ ?_ ?_ ?_ <;> (try simp only) <;> linarith
    · refine edge hf' (p := (3, 1)) (q := (4, 2)) ⟨rfl, rfl⟩ (z.2 - 1) ?_ ?_ ?_ ?_ <;> (try simp only) <;> linarith
    · refine edge hf' (p := (4, 2)) (q := (3, 2)) ⟨rfl, rfl⟩ (4 - z.1) ?_ ?_ ?_ ?_ <;> (try simp only) <;> linarith
    · refine edge hf' (p := (3, 2)) (q := (0, 0)) ⟨rfl, rfl⟩ (1 - z.2 / 2) ?_ ?_ ?_ ?_ <;> (try simp only) <;> linarith

theorem hullD_ok : C81.IsHull [(0, 0), (4, 0), (3, 8)] hullD := by
  have hb : ∀ {z}, C81.Area [(0, 0), (4, 0), (3, 8)] z → ∀ f ∈ hullD.facets, C81.val f z ≤ 0 :=
    fun hz => bounded (h := hullD) (by decide +kernel) hz
  refine ⟨rfl, fun z => ⟨hb, fun hz => ?_⟩, ?_, ?_⟩
  · simp only [hullD, List.forall_mem_cons, C81.val] at hz
    obtain ⟨h1, h2, h3, -⟩ := hz
    refine C81.tri (A := (0, 0)) (B := (4, 0)) (C := (3, 8)) (u := (32 - 8 * z.1 - z.2) / 32) (v := (8 * z.1 - 3 * z.2) / 32)
      (w := z.2 / 8)
      (by simp) (by simp) (by simp) (by linarith) (by linarith) (by linarith) (by ring) ?_
    ext <;> simp only <;> ring
  · intro f hf
    simp only [hullD, List.mem_cons, List.not_mem_nil, or_false] at hf
    rcases hf with rfl | rfl | rfl
    · exact ⟨(0, 0), (4, 0), ⟨rfl, rfl⟩, by decide +kernel⟩
    · exact ⟨(4, 0), (3, 8), ⟨rfl, rfl⟩, by decide +kernel⟩
    · exact ⟨(3, 8), (0, 0), ⟨rfl, rfl⟩, by decide +kernel⟩
  · intro f hf z hz hv
    have hz := hb hz
    simp only [hullD, List.forall_mem_cons, C81.val] at hz
    obtain ⟨h1, h2, h3, -⟩ := hz
    have hf' := hf
    simp only [hullD, List.mem_cons, List.not_mem_nil, or_false] at hf
    rcases hf with rfl | rfl | rfl <;> simp only [C81.val] at hv
    · refine edge hf' (p := (0, 0)) (q := (4, 0)) ⟨rfl, rfl⟩ (z.1 / 4) ?_ ?_ ?_ ?_ <;> (try simp only) <;> linarith
    · refine edge hf' (p := (4, 0)) (q := (3, 8)) ⟨rfl, rfl⟩ (z.2 / 8) ?_ ?_ ?_ ?_ <;> (try simp only) <;> linarith
    · refine edge hf' (p := (3, 8)) (q := (0, 0)) ⟨rfl, rfl⟩ (1 - z.2 / 8) ?_ ?_ ?_ ?_ <;> (try simp only) <;> linarith

/-- The hulls in the plane that the compressor asks for. -/
def planeHull (r : List (ℚ × ℚ × ℚ)) : Except SErr Planar.Hull :=
  if r = [(0, 0, 0), (1, 5, 3), (2, 0, 4), (2, 8, 3)] then .ok hullA
  else if r = [(1, 5, 3), (2, 0, 4), (2, 8, 3)] then .ok hullB
  else if r = [(0, 0, 0), (3, 1, 5), (4, 2, 0), (3, 2, 8)] then .ok hullC
  else if r = [(0, 0, 0), (4, 0, 2), (3, 8, 2)] then .ok hullD
  else .error .hull

open Classical in
/-- An interpolation that keeps the promise. -/
noncomputable def blendAt (samples : List (P3 × ℚ)) (z : P3) : Fl :=
  if hz : ∃ e, Mix samples (z, e) then some hz.choose else none

/-- A library that keeps the promise and knows the hulls of the table. -/
noncomputable def slopeGeometry : Geometry where
  plane := ⟨planeHull, C81.tableGeometry.interp⟩
  hull pts := if pts = slopePoints then .ok slopeHull else .error .hull
  interp := blendAt

theorem blendAt_ok (samples : List (P3 × ℚ)) : Interpolates samples (blendAt samples) := by
  have hiff : ∀ z, (∃ e, Mix samples (z, e)) ↔ Solid (samples.map (·.1)) z := by
    intro z
    constructor
    · rintro ⟨e, he⟩; exact mix_solid he
    · intro h
      induction h with
      | sample hp =>
        obtain ⟨x, hx, rfl⟩ := List.mem_map.1 hp
        exact ⟨x.2, .sample hx⟩
      | mix k h0 h1 _ _ ih1 ih2 =>
        obtain ⟨e1, b1⟩ := ih1
        obtain ⟨e2, b2⟩ := ih2
        exact ⟨_, .mix k h0 h1 b1 b2⟩
  constructor
  · intro z
    rw [← hiff]
    unfold blendAt
    split
    · rename_i h; simp [h]
    · rename_i h; simp [h]
  · intro z e he
    unfold blendAt at he
    split at he
    · rename_i h
      cases he
      exact h.choose_spec
    · cases he

theorem slopeGeometry_ok : Promise slopeGeometry := by
  refine ⟨⟨fun r h e => ?_, C81.tableGeometry_promise.interp⟩, fun pts h e => ?_, blendAt_ok⟩
  · change planeHull r = .ok h at e
    unfold planeHull at e
    by_cases c1 : r = [(0, 0, 0), (1, 5, 3), (2, 0, 4), (2, 8, 3)]
    · rw [if_pos c1] at e; cases e; subst c1; exact hullA_ok
    rw [if_neg c1] at e
    by_cases c2 : r = [(1, 5, 3), (2, 0, 4), (2, 8, 3)]
    · rw [if_pos c2] at e; cases e; subst c2; exact hullB_ok
    rw [if_neg c2] at e
    by_cases c3 : r = [(0, 0, 0), (3, 1, 5), (4, 2, 0), (3, 2, 8)]
    · rw [if_pos c3] at e; cases e; subst c3; exact hullC_ok
    rw [if_neg c3] at e
    by_cases c4 : r = [(0, 0, 0), (4, 0, 2), (3, 8, 2)]
    · rw [if_pos c4] at e; cases e; subst c4; exact hullD_ok
    rw [if_neg c4] at e; cases e
  · simp only [slopeGeometry] at e
    by_cases c : pts = slopePoints
    · rw [if_pos c] at e; cases e; rw [c]; exact slope_hull
    · rw [if_neg c] at e; cases e

/-- The compressor made from the table. -/
def slopeSpace : Space where
  scale := 1
  samples := [(⟨0, 0, 0⟩, 1), (⟨3, 1, 5⟩, 7), (⟨4, 2, 0⟩, 3), (⟨3, 2, 8⟩, 11)]
  low := 0
  high := 4
  minRate := ⟨⟨⟨[(0, 0), (2, 0)], some 0, some 0⟩, ⟨[(0, 2), (8, 2)], some 2, some 2⟩, none⟩,
    ⟨[⟨(0, 0, 0), (2, 0, 4), (2, 8, 3), 32, -2, -16, 0⟩, ⟨(0, 0, 0), (1, 5, 3), (2, 8, 3), -9, 3, -2, 0⟩],
      [(0, 0, 0), (1, 5, 3), (2, 0, 4), (2, 8, 3)], some 0⟩, [(0, 0, 1), (1, 5, 7), (2, 0, 3), (2, 8, 11)]⟩
  maxRate := ⟨⟨⟨[(1, 5), (2, 0)], some 0, some 5⟩, ⟨[(0, 2), (8, 2)], some 2, some 2⟩, none⟩,
    ⟨[⟨(1, 5, 3), (2, 0, 4), (2, 8, 3), -3, 1, 8, -26⟩], [(1, 5, 3), (2, 0, 4), (2, 8, 3)], some 0⟩,
    [(1, 5, 7), (2, 0, 3), (2, 8, 11)]⟩
  minPd := ⟨⟨⟨[(0, 0), (2, 3)], some 0, some 3⟩, ⟨[(0, 0), (3, 2), (4, 2)], some 0, some 2⟩, none⟩,
    ⟨[⟨(0, 0, 0), (4, 2, 0), (3, 2, 8), -16, 32, -2, 0⟩, ⟨(0, 0, 0), (3, 1, 5), (4, 2, 0), 10, -20, -2, 0⟩],
      [(0, 0, 0), (3, 1, 5), (4, 2, 0), (3, 2, 8)], some 0⟩, [(0, 0, 1), (3, 1, 7), (4, 2, 3), (3, 2, 11)]⟩
  maxPs := ⟨⟨⟨[(0, 0), (8, 3)], some 0, some 3⟩, ⟨[(0, 0), (4, 0)], some 0, some 0⟩, none⟩,
    ⟨[⟨(0, 0, 0), (4, 0, 2), (3, 8, 2), -16, -2, 32, 0⟩], [(0, 0, 0), (4, 0, 2), (3, 8, 2)], none⟩,
    [(0, 0, 1), (4, 0, 3), (3, 8, 11)]⟩

theorem slope_created : create slopeGeometry slope = .ok slopeSpace := by decide +kernel

theorem covers_slope (z : P3) : Covers slope z ↔ ∀ f ∈ slopeHull.facets, C101.val f z ≤ 0 := by
  unfold Covers
  rw [slope_points, slope_hull.solid]

/-- In this table the energy is one more than the sum of the pressures. -/
theorem slope_energy {x : P3 × ℚ} (h : Mix (pointsOf slope) x) : x.2 = 1 + x.1.s + x.1.d := by
  induction h with
  | sample hp =>
    simp only [pointsOf, slope, List.map_cons, List.map_nil, List.mem_cons, List.not_mem_nil, or_false] at hp
    rcases hp with rfl | rfl | rfl | rfl <;> norm_num
  | mix k _ _ _ _ ih1 ih2 => simp only [ih1, ih2]; ring

/-- Inside the space. -/
example : slopeSpace.evaluate slopeGeometry 2 1 4 = some 6 := by
  obtain ⟨e, he, hm⟩ := C102_inside slopeGeometry slopeGeometry_ok slope slope_nonnegative slope_round slopeSpace slope_created
    2 1 4 (by rw [covers_slope]; simp only [slopeHull, List.forall_mem_cons, C101.val]; norm_num)
  have := slope_energy hm
  norm_num at this
  rw [he, this]

/-- A rate of 1 at suction pressure 3/2 and discharge pressure 1 is below the minimum rate. It has a value, of a point with
at most the suction pressure and at least the discharge pressure. -/
example : (slopeSpace.evaluate slopeGeometry 1 (3 / 2) 1).isSome :=
  C102_valid slopeGeometry slopeGeometry_ok slope slope_nonnegative slope_round slopeSpace slope_created _ slope_tolerance
    1 (3 / 2) 1 (by norm_num) ⟨⟨3, 3 / 2, 1⟩, by
      rw [covers_slope]; simp only [slopeHull, List.forall_mem_cons, C101.val]; norm_num, by
      unfold Serves; norm_num⟩

/-- The rate 5 is beyond the space. -/
example : slopeSpace.evaluate slopeGeometry 5 2 0 = none := by
  cases h : slopeSpace.evaluate slopeGeometry 5 2 0 with
  | none => rfl
  | some e =>
    obtain ⟨z, hz, h1, h2, h3⟩ := C102_served slopeGeometry slopeGeometry_ok slope slope_nonnegative slope_round slopeSpace
      slope_created _ slope_tolerance 5 2 0 (by rw [h]; rfl)
    rw [covers_slope] at hz
    have := hz ⟨1, 2, 3, 8, -3, 1, -26⟩ (by simp [slopeHull])
    simp only [C101.val] at this
    norm_num at h1
    linarith

example (rate ps pd e : ℚ) (h : slopeSpace.evaluate slopeGeometry rate ps pd = some e) : 1 ≤ e ∧ e ≤ 11 :=
  C102_range slopeGeometry slopeGeometry_ok slope slope_nonnegative slope_round slopeSpace slope_created 1 11
    (by decide +kernel) rate ps pd e h

/-- Every value is one more than the sum of two pressures, the first at most the suction pressure, the second at least the
discharge pressure. -/
example (rate ps pd e : ℚ) (h : slopeSpace.evaluate slopeGeometry rate ps pd = some e) :
    ∃ s d, s ≤ ps ∧ pd ≤ d ∧ e = 1 + s + d := by
  obtain ⟨z, h1, h2, h3, -⟩ := C102_energy slopeGeometry slopeGeometry_ok slope slope_nonnegative slope_round slopeSpace
    slope_created _ slope_tolerance rate ps pd e h
  exact ⟨z.s, z.d, h2, h3, slope_energy h1⟩

example : (slopeSpace.evaluate slopeGeometry 4 2 0).isSome := by
  obtain ⟨m, h1, h2⟩ := C102_max_rate slopeGeometry slopeGeometry_ok slope slope_nonnegative slope_round slopeSpace
    slope_created _ slope_tolerance (by norm_num) 2 0
  have : slopeSpace.getMaxRate slopeGeometry 2 0 = some 4 := by decide +kernel
  rw [this] at h1
  cases h1
  rcases h2 with h2 | h2
  · norm_num at h2
  · exact h2.2

/-- A table with rates of a tenth of the pressures. -/
example (g : Geometry) : create g [(1, 10, 20, 1), (2, 10, 30, 2), (1, 20, 30, 3), (3, 10, 40, 4)] = .error .hull :=
  C102_scale g _ (by unfold Nonnegative; decide +kernel) (by simp) (by decide +kernel) (by decide +kernel)

/-- **C102** (finding): a higher suction pressure can lower the maximum rate: beyond the sampled suction pressures the
discharge pressure is raised to the value for the lowest suction pressure. -/
theorem C102_max_rate_falls : ∃ g rows x ps ps' pd m m', Promise g ∧ Nonnegative rows ∧
    C101.Round ((pointsOf rows).map (·.1)) ∧ create g rows = .ok x ∧ ps < ps' ∧ x.getMaxRate g ps pd = some m ∧
    x.getMaxRate g ps' pd = some m' ∧ m' < m :=
  ⟨slopeGeometry, slope, slopeSpace, 2, 3, 0, 4, 27 / 8, slopeGeometry_ok, slope_nonnegative, slope_round, slope_created,
    by norm_num, by decide +kernel, by decide +kernel, by norm_num⟩

/-- **C102** (finding): a positive rate below the tolerance may have no value although a higher rate has one at the same
pressures: where the maximum rate is missing it is zero, and the rate counts as being at the maximum. -/
theorem C102_small_rate : ∃ g rows x t rate rate' ps pd, Promise g ∧ Nonnegative rows ∧
    C101.Round ((pointsOf rows).map (·.1)) ∧ create g rows = .ok x ∧ Tolerance rows t ∧ 0 < rate ∧ rate < t ∧ rate < rate' ∧
    (∃ z, Covers rows z ∧ Serves rate' ps pd z) ∧ x.evaluate g rate ps pd = none ∧ (x.evaluate g rate' ps pd).isSome := by
  have hserved : ∃ z, Covers slope z ∧ Serves 1 (1 / 2) (11 / 5) z := ⟨⟨11 / 10, 1 / 2, 11 / 5⟩, by
    rw [covers_slope]; simp only [slopeHull, List.forall_mem_cons, C101.val]; norm_num, by unfold Serves; norm_num⟩
  refine ⟨slopeGeometry, slope, slopeSpace, 4 / 10000, 1 / 10000, 1, 1 / 2, 11 / 5, slopeGeometry_ok, slope_nonnegative,
    slope_round, slope_created, slope_tolerance, by norm_num, by norm_num, by norm_num, hserved, ?_, ?_⟩
  · have hmax : slopeSpace.maxRate.plane.project .psPd (1 / 2) (11 / 5) = (1 / 2, 11 / 5) := by decide +kernel
    have hout : slopeGeometry.plane.interp slopeSpace.maxRate.energies (1 / 2, 11 / 5) = none := by
      cases e : slopeGeometry.plane.interp slopeSpace.maxRate.energies (1 / 2, 11 / 5) with
      | none => rfl
      | some v =>
        have h1 := ((slopeGeometry_ok.plane.interp slopeSpace.maxRate.energies).domain (1 / 2, 11 / 5)).1 (by rw [e]; rfl)
        have h2 := C81.area_bound (a := -1) (b := 0) (c := -1) (by decide +kernel) h1
        norm_num at h2
    have hlim : slopeSpace.maxRate.limit.at slopeGeometry (1 / 2, 11 / 5) = some 0 := by
      have e1 : onSimplices slopeSpace.maxRate.limit.simplices (1 / 2, 11 / 5) = none := by decide +kernel
      have e2 : slopeGeometry.plane.interp slopeSpace.maxRate.limit.rows (1 / 2, 11 / 5) = none := by
        cases e : slopeGeometry.plane.interp slopeSpace.maxRate.limit.rows (1 / 2, 11 / 5) with
        | none => rfl
        | some v =>
          have h1 := ((slopeGeometry_ok.plane.interp slopeSpace.maxRate.limit.rows).domain (1 / 2, 11 / 5)).1 (by rw [e]; rfl)
          have h2 := C81.area_bound (a := -1) (b := 0) (c := -1) (by decide +kernel) h1
          norm_num at h2
      simp only [Surface.at, e1, e2]
      rfl
    cases e : slopeSpace.evaluate slopeGeometry (1 / 10000) (1 / 2) (11 / 5) with
    | none => rfl
    | some v =>
      have hw := evaluate_way e
      have hr : (1 : ℚ) / 10000 / slopeSpace.scale = 1 / 10000 := by simp [slopeSpace]
      rw [hr] at hw
      exfalso
      cases hw with
      | inside h =>
        have h1 := mix_solid ((slopeGeometry_ok.interp slopeSpace.samples).blend _ _ h)
        have h2 : C101.val ⟨0, 2, 3, -16, 32, -2, 0⟩ ⟨1 / 10000, 1 / 2, 11 / 5⟩ ≤ 0 :=
          (slope_hull.solid _).1 h1 _ (by simp [slopeHull])
        simp only [C101.val] at h2
        norm_num at h2
      | max m hm hr h => rw [hmax, hout] at h; cases h
      | min m hm hr hno h =>
        rw [hmax] at hno
        refine hno 0 hlim ?_
        simp only [Space.slack, slopeSpace]
        rw [sub_zero, abs_of_pos (by norm_num)]
        norm_num
      | pd m hm hr h =>
        have : slopeSpace.minPd.limit.at slopeGeometry (slopeSpace.minPd.plane.project .ratePs (1 / 10000) (1 / 2)) = some 2 := by
          decide +kernel
        rw [this] at hm
        cases hm
        norm_num at hr
      | ps m hm hr h =>
        have : slopeSpace.maxPs.limit.at slopeGeometry (slopeSpace.maxPs.plane.project .ratePd (1 / 10000) (11 / 5)) =
            some (11 / 20) := by
          decide +kernel
        rw [this] at hm
        cases hm
        norm_num at hr
  · exact C102_valid slopeGeometry slopeGeometry_ok slope slope_nonnegative slope_round slopeSpace slope_created _
      slope_tolerance 1 (1 / 2) (11 / 5) (by norm_num) hserved

end Verif.C102
