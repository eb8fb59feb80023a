import Verif.Lemmas.Polyline
import Mathlib.Tactic.NormNum

/-!
# C56: chart curves and the control margin

A chart curve is the polyline through its points: it keeps every point it was given, sorted by rate; head and efficiency
at a rate lie on the polyline, are constant outside it and never leave the range of the given values; head falls with
rate when the points do, and head and rate are inverse to each other when they fall strictly. A control margin between 0
and 1 moves the smallest rate to the right and changes nothing else: at every remaining rate head and efficiency are
those of the curve without margin.
-/

namespace Verif.C56
open Verif.Time Verif.Table Verif.TableLemmas Verif.Charts Verif.Polyline

/-! ## Specification -/

/-- Rates increase strictly along the curve. -/
def Increasing (c : Curve) : Prop := c.pts.Pairwise fun p q => p.rate < q.rate

/-- Heads do not increase along the curve. -/
def Falls (c : Curve) : Prop := c.pts.Pairwise fun p q => q.head ≤ p.head

/-- Heads decrease strictly along the curve. -/
def Drops (c : Curve) : Prop := c.pts.Pairwise fun p q => q.head < p.head

/-- `(x, y)` lies on the polyline through the points `(rate, val)`: it is one of them, or it divides the segment between
two neighbours in proportion. -/
def OnCurve (val : Pt → ℚ) (c : Curve) (x y : ℚ) : Prop :=
  (∃ p ∈ c.pts, p.rate = x ∧ val p = y) ∨
  ∃ p ∈ c.pts, ∃ q ∈ c.pts, p.rate < x ∧ x < q.rate ∧ (∀ r ∈ c.pts, r.rate ≤ p.rate ∨ q.rate ≤ r.rate) ∧
    (y - val p) * (q.rate - p.rate) = (val q - val p) * (x - p.rate)

/-! ## Helpers -/

/-- The rows given to the interpolation. -/
abbrev rows (val : Pt → ℚ) (c : Curve) : List (ℚ × ℚ) := c.pts.map fun p => (p.rate, val p)

theorem between_iff (val : Pt → ℚ) (c : Curve) (x y : ℚ) : Between (rows val c) x y ↔ OnCurve val c x y := by
  constructor
  · rintro (m | ⟨a, ha, b, hb, a1, a2, a3, rfl⟩)
    · left
      obtain ⟨p, hp, he⟩ := List.mem_map.mp m
      obtain ⟨h1, h2⟩ := Prod.mk.inj he
      exact ⟨p, hp, h1, h2⟩
    · right
      obtain ⟨p, hp, rfl⟩ := List.mem_map.mp ha
      obtain ⟨q, hq, rfl⟩ := List.mem_map.mp hb
      refine ⟨p, hp, q, hq, a1, a2, fun r hr => a3 _ (List.mem_map.mpr ⟨r, hr, rfl⟩), ?_⟩
      have : q.rate - p.rate ≠ 0 := by have : p.rate < q.rate := lt_trans a1 a2; linarith
      unfold onLine
      simp only
      field_simp
      ring
  · rintro (⟨p, hp, rfl, rfl⟩ | ⟨p, hp, q, hq, a1, a2, a3, he⟩)
    · left; exact List.mem_map.mpr ⟨p, hp, rfl⟩
    · right
      refine ⟨_, List.mem_map.mpr ⟨p, hp, rfl⟩, _, List.mem_map.mpr ⟨q, hq, rfl⟩, a1, a2, ?_, ?_⟩
      · intro r hr
        obtain ⟨s, hs, rfl⟩ := List.mem_map.mp hr
        exact a3 s hs
      · have : q.rate - p.rate ≠ 0 := by have : p.rate < q.rate := lt_trans a1 a2; linarith
        unfold onLine
        simp only
        field_simp
        linarith

theorem pts_ne (c : Curve) : c.pts ≠ [] := by simp [Curve.pts]

theorem rows_ne (val : Pt → ℚ) (c : Curve) : rows val c ≠ [] := by simp [rows, Curve.pts]

theorem last_mem (c : Curve) : c.last ∈ c.pts := List.getLast_mem _

theorem first_mem (c : Curve) : c.first ∈ c.pts := by simp [Curve.pts]

theorem functional_rows (val : Pt → ℚ) {c : Curve} (h : Increasing c) : Functional (rows val c) := by
  unfold Increasing at h
  intro r hr s hs he
  obtain ⟨p, hp, rfl⟩ := List.mem_map.mp hr
  obtain ⟨q, hq, rfl⟩ := List.mem_map.mp hs
  simp only at he
  have key : ∀ (l : List Pt), l.Pairwise (fun p q => p.rate < q.rate) → ∀ p ∈ l, ∀ q ∈ l, p.rate = q.rate → p = q := by
    intro l
    induction l with
    | nil => simp
    | cons a l ih =>
      intro hl p hp q hq he
      obtain ⟨h1, h2⟩ := List.pairwise_cons.mp hl
      rcases List.mem_cons.mp hp with rfl | _
      · rcases List.mem_cons.mp hq with rfl | hq
        · rfl
        · have := h1 q hq; linarith
      · rename_i hp'
        rcases List.mem_cons.mp hq with rfl | hq
        · have := h1 p hp'; linarith
        · exact ih h2 p hp' q hq he
  rw [key _ h p hp q hq he]

/-- In a list sorted by rate every relation between neighbours on the right is a relation by rate. -/
theorem pairwise_by_rate {l : List Pt} {R : Pt → Pt → Prop} (hl : l.Pairwise fun p q => p.rate ≤ q.rate)
    (hR : l.Pairwise R) : ∀ p ∈ l, ∀ q ∈ l, p.rate < q.rate → R p q := by
  induction l with
  | nil => simp
  | cons a l ih =>
    obtain ⟨h1, h2⟩ := List.pairwise_cons.mp hl
    obtain ⟨r1, r2⟩ := List.pairwise_cons.mp hR
    intro p hp q hq he
    rcases List.mem_cons.mp hp with rfl | hp'
    · rcases List.mem_cons.mp hq with rfl | hq
      · exact absurd he (lt_irrefl _)
      · exact r1 q hq
    · rcases List.mem_cons.mp hq with rfl | hq
      · have := h1 p hp'; linarith
      · exact ih h2 r2 p hp' q hq he

theorem increasing_le {c : Curve} (h : Increasing c) : c.pts.Pairwise fun p q => p.rate ≤ q.rate :=
  h.imp fun h => le_of_lt h

theorem first_le {c : Curve} (h : c.pts.Pairwise fun p q => p.rate ≤ q.rate) : ∀ p ∈ c.pts, c.first.rate ≤ p.rate := by
  unfold Curve.pts at h ⊢
  obtain ⟨h1, h2⟩ := List.pairwise_cons.mp h
  intro p hp
  rcases List.mem_cons.mp hp with rfl | hp
  · exact le_refl _
  · exact h1 p hp

theorem getLast_rel {R : Pt → Pt → Prop} (hR : ∀ p, R p p) (l : List Pt) (hne : l ≠ []) (h : l.Pairwise R) :
    ∀ p ∈ l, R p (l.getLast hne) := by
  induction l with
  | nil => simp
  | cons a l ih =>
    obtain ⟨h1, h2⟩ := List.pairwise_cons.mp h
    intro p hp
    cases l with
    | nil => simp at hp; subst hp; exact hR _
    | cons b l =>
      rw [List.getLast_cons (by simp)]
      rcases List.mem_cons.mp hp with rfl | hp
      · exact h1 _ (List.getLast_mem _)
      · exact ih (by simp) h2 p hp

theorem le_last {c : Curve} (h : c.pts.Pairwise fun p q => p.rate ≤ q.rate) : ∀ p ∈ c.pts, p.rate ≤ c.last.rate :=
  getLast_rel (R := fun p q => p.rate ≤ q.rate) (fun _ => le_refl _) _ _ h

/-! ## The constructor -/

/-- What the constructor accepts. -/
def Acceptable (rates heads effs : List ℚ) : Prop :=
  (∀ e ∈ effs, 0 ≤ e ∧ e ≤ 1) ∧ rates.length = heads.length ∧ heads.length = effs.length ∧ 2 ≤ rates.length

theorem zip_length (rates heads effs : List ℚ) (h : Acceptable rates heads effs) :
    (List.zipWith (fun r (he : ℚ × ℚ) => Pt.mk r he.1 he.2) rates (heads.zip effs)).length = rates.length := by
  obtain ⟨-, h1, h2, -⟩ := h
  simp only [List.length_zipWith, List.length_zip]
  omega

/-- **The constructor** accepts exactly the columns of equal length with at least two points and efficiencies between 0
and 1; the curve then has the given points, sorted by rate, whatever their order was. -/
theorem C56_make (rates heads effs : List ℚ) (speed : ℚ) :
    (¬ Acceptable rates heads effs → Curve.make rates heads effs speed = .error .validation) ∧
    (Acceptable rates heads effs → ∃ c, Curve.make rates heads effs speed = .ok c ∧ c.speed = speed ∧
      c.pts.Perm (List.zipWith (fun r (he : ℚ × ℚ) => Pt.mk r he.1 he.2) rates (heads.zip effs)) ∧
      (c.pts.Pairwise fun p q => p.rate ≤ q.rate) ∧ (∀ p ∈ c.pts, 0 ≤ p.eff ∧ p.eff ≤ 1) ∧ 2 ≤ c.pts.length) := by
  constructor
  · intro h
    unfold Curve.make
    split
    · rfl
    · rename_i h1
      split
      · rfl
      · rename_i h2
        split
        · rfl
        · rename_i h3
          exact absurd ⟨not_not.mp h1, (not_not.mp h2).1, (not_not.mp h2).2, not_lt.mp h3⟩ h
  · intro h
    have hlen := zip_length rates heads effs h
    obtain ⟨h1, h2, h3, h4⟩ := h
    unfold Curve.make
    rw [if_neg (not_not.mpr h1), if_neg (not_not.mpr ⟨h2, h3⟩), if_neg (not_lt.mpr h4)]
    have hperm := List.perm_insertionSort (fun (a b : Pt) => a.rate ≤ b.rate)
      (List.zipWith (fun r (he : ℚ × ℚ) => Pt.mk r he.1 he.2) rates (heads.zip effs))
    have hsort := List.pairwise_insertionSort (fun (a b : Pt) => a.rate ≤ b.rate)
      (List.zipWith (fun r (he : ℚ × ℚ) => Pt.mk r he.1 he.2) rates (heads.zip effs))
    cases hc : (List.zipWith (fun r (he : ℚ × ℚ) => Pt.mk r he.1 he.2) rates (heads.zip effs)).insertionSort
        (fun a b => a.rate ≤ b.rate) with
    | nil =>
      rw [hc] at hperm
      have := hperm.length_eq
      simp only [List.length_nil] at this
      omega
    | cons p rest =>
      rw [hc] at hperm hsort
      refine ⟨⟨speed, p, rest⟩, rfl, rfl, hperm, hsort, ?_, ?_⟩
      · intro q hq
        have hq := hperm.mem_iff.mp hq
        obtain ⟨i, hi, rfl⟩ := List.mem_iff_getElem.mp hq
        simp only [List.getElem_zipWith, List.getElem_zip]
        exact h1 _ (List.getElem_mem _)
      · have := hperm.length_eq
        simp only [Curve.pts]
        omega

/-! ## Head and efficiency along the curve -/

/-- **Head** is constant outside the curve and on the polyline inside it. -/
theorem C56_head (c : Curve) (hs : c.pts.Pairwise fun p q => p.rate ≤ q.rate) (x : ℚ) :
    (x < c.minRate → c.headAt x = c.first.head) ∧ (c.maxRate < x → c.headAt x = c.last.head) ∧
    (c.minRate ≤ x → x ≤ c.maxRate → OnCurve (·.head) c x (c.headAt x)) := by
  refine ⟨fun h => ?_, fun h => ?_, fun h1 h2 => ?_⟩
  · apply interp_below (rows_ne _ c)
    intro r hr
    obtain ⟨p, hp, rfl⟩ := List.mem_map.mp hr
    exact lt_of_lt_of_le h (first_le hs p hp)
  · apply interp_above (rows_ne _ c)
    intro r hr
    obtain ⟨p, hp, rfl⟩ := List.mem_map.mp hr
    exact lt_of_le_of_lt (le_last hs p hp) h
  · rw [← between_iff]
    exact interp_inside ⟨_, List.mem_map.mpr ⟨c.first, first_mem c, rfl⟩, h1⟩
      ⟨_, List.mem_map.mpr ⟨c.last, last_mem c, rfl⟩, h2⟩

/-- **Efficiency** is constant outside the curve and on the polyline inside it. -/
theorem C56_efficiency (c : Curve) (hs : c.pts.Pairwise fun p q => p.rate ≤ q.rate) (x : ℚ) :
    (x < c.minRate → c.effAt x = c.first.eff) ∧ (c.maxRate < x → c.effAt x = c.last.eff) ∧
    (c.minRate ≤ x → x ≤ c.maxRate → OnCurve (·.eff) c x (c.effAt x)) := by
  refine ⟨fun h => ?_, fun h => ?_, fun h1 h2 => ?_⟩
  · apply interp_below (rows_ne _ c)
    intro r hr
    obtain ⟨p, hp, rfl⟩ := List.mem_map.mp hr
    exact lt_of_lt_of_le h (first_le hs p hp)
  · apply interp_above (rows_ne _ c)
    intro r hr
    obtain ⟨p, hp, rfl⟩ := List.mem_map.mp hr
    exact lt_of_le_of_lt (le_last hs p hp) h
  · rw [← between_iff]
    exact interp_inside ⟨_, List.mem_map.mpr ⟨c.first, first_mem c, rfl⟩, h1⟩
      ⟨_, List.mem_map.mpr ⟨c.last, last_mem c, rfl⟩, h2⟩

/-- The curve meets each of its points when no rate is given twice. -/
theorem C56_points (c : Curve) (h : Increasing c) : ∀ p ∈ c.pts, c.headAt p.rate = p.head ∧ c.effAt p.rate = p.eff := by
  intro p hp
  exact ⟨interp_at (functional_rows (·.head) h) (r := (p.rate, p.head)) (List.mem_map.mpr ⟨p, hp, rfl⟩),
    interp_at (functional_rows (·.eff) h) (r := (p.rate, p.eff)) (List.mem_map.mpr ⟨p, hp, rfl⟩)⟩

/-- Head and efficiency never leave the range of the given values. -/
theorem C56_range (c : Curve) (lo hi : ℚ) (x : ℚ) :
    ((∀ p ∈ c.pts, lo ≤ p.head ∧ p.head ≤ hi) → lo ≤ c.headAt x ∧ c.headAt x ≤ hi) ∧
    ((∀ p ∈ c.pts, lo ≤ p.eff ∧ p.eff ≤ hi) → lo ≤ c.effAt x ∧ c.effAt x ≤ hi) := by
  constructor
  · intro h
    refine interp_bounds (rows_ne (·.head) c) ?_ (h _ (first_mem c)) (h _ (last_mem c))
    intro r hr
    obtain ⟨p, hp, rfl⟩ := List.mem_map.mp hr
    exact h p hp
  · intro h
    refine interp_bounds (rows_ne (·.eff) c) ?_ (h _ (first_mem c)) (h _ (last_mem c))
    intro r hr
    obtain ⟨p, hp, rfl⟩ := List.mem_map.mp hr
    exact h p hp

theorem falling_rows {c : Curve} (h : Increasing c) (hf : Falls c) : Falling (rows (·.head) c) := by
  intro r hr s hs hlt
  obtain ⟨p, hp, rfl⟩ := List.mem_map.mp hr
  obtain ⟨q, hq, rfl⟩ := List.mem_map.mp hs
  exact pairwise_by_rate (increasing_le h) hf p hp q hq hlt

theorem dropping_rows {c : Curve} (h : Increasing c) (hf : Drops c) : Dropping (rows (·.head) c) := by
  intro r hr s hs hlt
  obtain ⟨p, hp, rfl⟩ := List.mem_map.mp hr
  obtain ⟨q, hq, rfl⟩ := List.mem_map.mp hs
  exact pairwise_by_rate (increasing_le h) hf p hp q hq hlt

theorem last_head_le {c : Curve} (hf : Falls c) : ∀ p ∈ c.pts, c.last.head ≤ p.head :=
  getLast_rel (R := fun p q => q.head ≤ p.head) (fun _ => le_refl _) _ _ hf

theorem head_le_first {c : Curve} (hf : Falls c) : ∀ p ∈ c.pts, p.head ≤ c.first.head := by
  unfold Falls Curve.pts at hf
  intro p hp
  rcases List.mem_cons.mp hp with rfl | hp
  · exact le_refl _
  · exact (List.pairwise_cons.mp hf).1 p hp

/-- **Head falls with rate**: whenever the points of the curve do, for all rates, also outside the curve. -/
theorem C56_antitone (c : Curve) (h : Increasing c) (hf : Falls c) (x y : ℚ) (hxy : x ≤ y) : c.headAt y ≤ c.headAt x := by
  have hs := increasing_le h
  obtain ⟨x1, x2, x3⟩ := C56_head c hs x
  obtain ⟨y1, y2, y3⟩ := C56_head c hs y
  have bx := (C56_range c c.last.head c.first.head x).1 (fun p hp => ⟨last_head_le hf p hp, head_le_first hf p hp⟩)
  have byy := (C56_range c c.last.head c.first.head y).1 (fun p hp => ⟨last_head_le hf p hp, head_le_first hf p hp⟩)
  by_cases hx : x < c.minRate
  · rw [x1 hx]; exact byy.2
  · by_cases hy : c.maxRate < y
    · rw [y2 hy]; exact bx.1
    · have hx := not_lt.mp hx
      have hy := not_lt.mp hy
      exact between_antitone (functional_rows _ h) (falling_rows h hf)
        ((between_iff _ _ _ _).mpr (x3 hx (le_trans hxy hy))) ((between_iff _ _ _ _).mpr (y3 (le_trans hx hxy) hy)) hxy

theorem drops_falls {c : Curve} (h : Drops c) : Falls c := h.imp fun h => le_of_lt h

theorem swap_rows (c : Curve) : (rows (·.head) c).map (fun r => (r.2, r.1)) = c.pts.map fun p => (p.head, p.rate) := by
  simp [rows, List.map_map, Function.comp_def]

theorem swap_back (c : Curve) : (c.pts.map fun p => (p.head, p.rate)).map (fun r => (r.2, r.1)) = rows (·.head) c := by
  simp [rows, List.map_map, Function.comp_def]

/-- **Rate and head are inverse** along a curve that falls strictly. -/
theorem C56_inverse (c : Curve) (h : Increasing c) (hd : Drops c) :
    (∀ x, c.minRate ≤ x → x ≤ c.maxRate → c.rateAt (c.headAt x) = x) ∧
    (∀ y, c.last.head ≤ y → y ≤ c.first.head → c.headAt (c.rateAt y) = y) := by
  have hs := increasing_le h
  have hdrop := dropping_rows h hd
  have hfun := functional_rows (·.head) h
  constructor
  · intro x h1 h2
    have hb := (between_iff _ _ _ _).mpr ((C56_head c hs x).2.2 h1 h2)
    have := between_swap hfun hdrop hb
    rw [swap_rows] at this
    have hf' := functional_swap hdrop hfun
    rw [swap_rows] at hf'
    exact interp_eq hf' this
  · intro y h1 h2
    have hf' := functional_swap hdrop hfun
    rw [swap_rows] at hf'
    have hd' : Dropping (c.pts.map fun p => (p.head, p.rate)) := by
      intro r hr s hs' hlt
      obtain ⟨p, hp, rfl⟩ := List.mem_map.mp hr
      obtain ⟨q, hq, rfl⟩ := List.mem_map.mp hs'
      simp only at hlt ⊢
      rcases lt_trichotomy q.rate p.rate with h' | h' | h'
      · exact h'
      · have := hfun (p.rate, p.head) (List.mem_map.mpr ⟨p, hp, rfl⟩) (q.rate, q.head) (List.mem_map.mpr ⟨q, hq, rfl⟩)
          h'.symm
        have := (Prod.mk.inj this).2
        linarith
      · have := hdrop (p.rate, p.head) (List.mem_map.mpr ⟨p, hp, rfl⟩) (q.rate, q.head) (List.mem_map.mpr ⟨q, hq, rfl⟩) h'
        simp only at this
        linarith
    have hb : Between (c.pts.map fun p => (p.head, p.rate)) y (c.rateAt y) :=
      interp_inside ⟨_, List.mem_map.mpr ⟨c.last, last_mem c, rfl⟩, h1⟩
        ⟨_, List.mem_map.mpr ⟨c.first, first_mem c, rfl⟩, h2⟩
    have := between_swap hf' hd' hb
    rw [swap_back] at this
    exact interp_eq hfun this

/-! ## The control margin -/

theorem least_first {c : Curve} (hs : c.pts.Pairwise fun p q => p.rate ≤ q.rate) :
    least c.first.rate (c.rest.map (·.rate)) = c.minRate := by
  obtain ⟨h1, h2⟩ := foldl_min_spec (c.rest.map (·.rate)) c.first.rate
  apply le_antisymm
  · exact h2 _ (by simp [Curve.minRate])
  · have : ∃ p ∈ c.pts, p.rate = List.foldl min c.first.rate (c.rest.map (·.rate)) := by
      rcases List.mem_cons.mp h1 with h | h
      · exact ⟨c.first, first_mem c, h.symm⟩
      · obtain ⟨p, hp, he⟩ := List.mem_map.mp h
        exact ⟨p, by simp [Curve.pts, hp], he⟩
    obtain ⟨p, hp, he⟩ := this
    unfold least
    rw [← he]
    exact first_le hs p hp

theorem greatest_last {c : Curve} (hs : c.pts.Pairwise fun p q => p.rate ≤ q.rate) :
    greatest c.first.rate (c.rest.map (·.rate)) = c.maxRate := by
  obtain ⟨h1, h2⟩ := foldl_max_spec (c.rest.map (·.rate)) c.first.rate
  have hmem : ∀ p ∈ c.pts, p.rate ∈ c.first.rate :: c.rest.map (·.rate) := by
    intro p hp
    unfold Curve.pts at hp
    rcases List.mem_cons.mp hp with rfl | hp
    · simp
    · exact List.mem_cons_of_mem _ (List.mem_map.mpr ⟨p, hp, rfl⟩)
  apply le_antisymm
  · have : ∃ p ∈ c.pts, p.rate = List.foldl max c.first.rate (c.rest.map (·.rate)) := by
      rcases List.mem_cons.mp h1 with h | h
      · exact ⟨c.first, first_mem c, h.symm⟩
      · obtain ⟨p, hp, he⟩ := List.mem_map.mp h
        exact ⟨p, by simp [Curve.pts, hp], he⟩
    obtain ⟨p, hp, he⟩ := this
    unfold greatest
    rw [← he]
    exact le_last hs p hp
  · exact h2 _ (hmem _ (last_mem c))

/-- The rate up to which the margin cuts the curve off. -/
theorem marginRate_eq {c : Curve} (hs : c.pts.Pairwise fun p q => p.rate ≤ q.rate) (m : ℚ) :
    c.marginRate m = c.minRate + (c.maxRate - c.minRate) * m := by
  unfold Curve.marginRate
  rw [least_first hs, greatest_last hs]

/-- No margin and margin 0 leave the curve alone. -/
theorem C56_no_margin (c : Curve) : c.adjust none = c ∧ c.adjust (some 0) = c := ⟨rfl, by simp [Curve.adjust]⟩

theorem getLast_filter (l : List Pt) (hne : l ≠ []) (f : Pt → Bool) (h : f (l.getLast hne) = true) :
    ∃ hne' : l.filter f ≠ [], (l.filter f).getLast hne' = l.getLast hne := by
  have hm : l.getLast hne ∈ l.filter f := List.mem_filter.mpr ⟨List.getLast_mem _, h⟩
  refine ⟨List.ne_nil_of_mem hm, ?_⟩
  have hl : l = l.dropLast ++ [l.getLast hne] := (List.dropLast_append_getLast hne).symm
  have : l.filter f = l.dropLast.filter f ++ [l.getLast hne] := by
    conv_lhs => rw [hl]
    rw [List.filter_append]
    simp [h]
  simp only [this, List.getLast_append_singleton]

/-- **Control margin.** A margin between 0 and 1 moves the smallest rate to the given fraction of the rate range, keeps
the largest rate and the speed, and keeps head and efficiency at every rate from the new smallest rate on. -/
theorem C56_margin (c : Curve) (h : Increasing c) (h2 : 2 ≤ c.pts.length) (m : ℚ) (hm0 : 0 < m) (hm1 : m < 1) :
    (c.adjust (some m)).minRate = c.minRate + m * (c.maxRate - c.minRate) ∧
    (c.adjust (some m)).maxRate = c.maxRate ∧ (c.adjust (some m)).speed = c.speed ∧
    Increasing (c.adjust (some m)) ∧ 2 ≤ (c.adjust (some m)).pts.length ∧
    (∀ x, (c.adjust (some m)).minRate ≤ x →
      (c.adjust (some m)).headAt x = c.headAt x ∧ (c.adjust (some m)).effAt x = c.effAt x) := by
  have hs := increasing_le h
  have hlt : c.minRate < c.maxRate := by
    unfold Increasing Curve.pts at h
    unfold Curve.minRate Curve.maxRate Curve.last
    cases hr : c.rest with
    | nil => simp [Curve.pts, hr] at h2
    | cons b l =>
      rw [hr] at h
      have := (List.pairwise_cons.mp h).1
      simp only [Curve.pts, hr]
      rw [List.getLast_cons (by simp)]
      exact this _ (List.getLast_mem _)
  have hM := marginRate_eq hs m
  have hMlo : c.minRate < c.marginRate m := by rw [hM]; nlinarith
  have hMhi : c.marginRate m < c.maxRate := by rw [hM]; nlinarith
  have hadj : c.adjust (some m) = ⟨c.speed, ⟨c.marginRate m, c.newPoint (·.head) (c.marginRate m),
      c.newPoint (·.eff) (c.marginRate m)⟩, c.pts.filter (fun p => decide (c.marginRate m < p.rate))⟩ := by
    unfold Curve.adjust
    simp [ne_of_gt hm0]
  obtain ⟨hne', hlast⟩ := getLast_filter c.pts (pts_ne c) (fun p => decide (c.marginRate m < p.rate))
    (decide_eq_true hMhi)
  have hlastpt : (c.adjust (some m)).last = c.last := by
    rw [hadj]
    exact (List.getLast_cons hne').trans hlast
  have hmax : (c.adjust (some m)).maxRate = c.maxRate := congrArg Pt.rate hlastpt
  have hinc : Increasing (c.adjust (some m)) := by
    rw [hadj]
    unfold Increasing
    simp only [Curve.pts]
    refine List.pairwise_cons.mpr ⟨fun q hq => by simpa using (List.mem_filter.mp hq).2, ?_⟩
    exact List.Pairwise.sublist List.filter_sublist h
  have hval : ∀ (val : Pt → ℚ), Between (rows val c) (c.marginRate m) (c.newPoint val (c.marginRate m)) := by
    intro val
    exact interp_inside ⟨_, List.mem_map.mpr ⟨c.first, first_mem c, rfl⟩, le_of_lt hMlo⟩
      ⟨_, List.mem_map.mpr ⟨c.last, last_mem c, rfl⟩, le_of_lt hMhi⟩
  have hrows : ∀ (val : Pt → ℚ) (p0 : Pt), p0.rate = c.marginRate m → val p0 = c.newPoint val (c.marginRate m) →
      rows val ⟨c.speed, p0, c.pts.filter (fun p => decide (c.marginRate m < p.rate))⟩
        = (c.marginRate m, c.newPoint val (c.marginRate m)) ::
          (rows val c).filter (fun r => decide (c.marginRate m < r.1)) := by
    intro val p0 e1 e2
    unfold rows
    rw [List.filter_map]
    simp only [Curve.pts, List.map_cons, e1, e2]
    rfl
  have key : ∀ x, c.marginRate m ≤ x → x ≤ c.maxRate →
      (c.adjust (some m)).headAt x = c.headAt x ∧ (c.adjust (some m)).effAt x = c.effAt x := by
    intro x hx1 hx2
    have hbh := (between_iff _ _ _ _).mpr ((C56_head _ (increasing_le hinc) x).2.2
      (by rw [hadj]; exact hx1) (by rw [hmax]; exact hx2))
    have hbe := (between_iff _ _ _ _).mpr ((C56_efficiency _ (increasing_le hinc) x).2.2
      (by rw [hadj]; exact hx1) (by rw [hmax]; exact hx2))
    constructor
    · conv at hbh => rw [hadj]
      rw [hrows (·.head) _ rfl rfl] at hbh
      have := between_cut (functional_rows (·.head) h) (hval _) hbh
      rw [hadj]
      exact (interp_eq (functional_rows (·.head) h) this).symm
    · conv at hbe => rw [hadj]
      rw [hrows (·.eff) _ rfl rfl] at hbe
      have := between_cut (functional_rows (·.eff) h) (hval _) hbe
      rw [hadj]
      exact (interp_eq (functional_rows (·.eff) h) this).symm
  refine ⟨?_, hmax, ?_, hinc, ?_, ?_⟩
  · rw [hadj]
    show c.marginRate m = _
    rw [hM]; ring
  · rw [hadj]
  · rw [hadj]
    simp only [Curve.pts, List.length_cons]
    have := List.length_pos_of_ne_nil hne'
    simp only [Curve.pts] at this
    omega
  · intro x hx
    by_cases hx2 : x ≤ c.maxRate
    · exact key x (by rw [hadj] at hx; exact hx) hx2
    · have hx2 := not_le.mp hx2
      rw [(C56_head c hs x).2.1 hx2, (C56_efficiency c hs x).2.1 hx2,
        (C56_head _ (increasing_le hinc) x).2.1 (by rw [hmax]; exact hx2),
        (C56_efficiency _ (increasing_le hinc) x).2.1 (by rw [hmax]; exact hx2), hlastpt]
      exact ⟨rfl, rfl⟩

/-- A concrete curve: three points, given in any order. -/
def pump3 : Curve := ⟨100, ⟨200, 3000, 7/10⟩, [⟨500, 2500, 4/5⟩, ⟨1000, 1500, 3/4⟩]⟩

example : Curve.make [1000, 200, 500] [1500, 3000, 2500] [3/4, 7/10, 4/5] 100 = .ok pump3 := by decide +kernel

example : Increasing pump3 ∧ Drops pump3 ∧ 2 ≤ pump3.pts.length := by
  unfold Increasing Drops pump3 Curve.pts; refine ⟨?_, ?_, by decide⟩ <;> norm_num

example : pump3.headAt 600 = 2300 ∧ pump3.rateAt 2300 = 600 ∧ pump3.headAt 100 = 3000 ∧ pump3.headAt 2000 = 1500 := by
  decide +kernel

example : (pump3.adjust (some (1/2))).minRate = 600 ∧ (pump3.adjust (some (1/2))).headAt 700 = pump3.headAt 700 ∧
    (pump3.adjust (some (1/2))).effAt 600 = 79/100 := by decide +kernel

/-! ## The chart of several curves -/

/-- **Curves are ordered by speed** and keep their number; the margin is applied to every one of them; a chart without
curves is refused. -/
theorem C56_chart (curves : List Curve) (margin : Option ℚ) :
    (curves = [] → Chart.userDefined curves margin = .error .validation) ∧
    (curves ≠ [] → ∃ ch, Chart.userDefined curves margin = .ok ch ∧
      ch.curves.Perm (curves.map fun c => c.adjust margin) ∧ (ch.curves.Pairwise fun a b => a.speed ≤ b.speed) ∧
      ∀ c ∈ ch.curves, ch.low.speed ≤ c.speed ∧ c.speed ≤ ch.high.speed) := by
  constructor
  · rintro rfl; rfl
  · intro hne
    have hperm := List.perm_insertionSort (fun (a b : Curve) => a.speed ≤ b.speed) curves
    have hsort := List.pairwise_insertionSort (fun (a b : Curve) => a.speed ≤ b.speed) curves
    have hspeed : ∀ c : Curve, (c.adjust margin).speed = c.speed := by
      intro c
      cases margin with
      | none => rfl
      | some m => unfold Curve.adjust; simp only; split <;> rfl
    unfold Chart.userDefined
    cases hc : curves.insertionSort (fun a b => a.speed ≤ b.speed) with
    | nil =>
      rw [hc] at hperm
      have := hperm.length_eq
      simp only [List.length_nil] at this
      exact absurd (List.length_eq_zero_iff.mp this.symm) hne
    | cons c cs =>
      rw [hc] at hperm hsort
      have hp : ((c :: cs).map fun c => c.adjust margin).Pairwise fun a b => a.speed ≤ b.speed := by
        rw [List.pairwise_map]
        exact hsort.imp fun {a b} h => by rw [hspeed, hspeed]; exact h
      refine ⟨⟨c.adjust margin, cs.map (fun k : Curve => k.adjust margin)⟩, rfl, hperm.map (fun k : Curve => k.adjust margin), hp, ?_⟩
      intro k hk
      have hp : (Chart.curves ⟨c.adjust margin, cs.map (fun c => c.adjust margin)⟩).Pairwise fun a b => a.speed ≤ b.speed := hp
      generalize (⟨c.adjust margin, cs.map (fun c => c.adjust margin)⟩ : Chart) = ch at hk hp
      constructor
      · unfold Chart.curves at hk hp
        rcases List.mem_cons.mp hk with rfl | hk
        · exact le_refl _
        · exact (List.pairwise_cons.mp hp).1 k hk
      · have key : ∀ (l : List Curve) (hne : l ≠ []), (l.Pairwise fun a b => a.speed ≤ b.speed) → ∀ c ∈ l,
            c.speed ≤ (l.getLast hne).speed := by
          intro l
          induction l with
          | nil => simp
          | cons a l ih =>
            intro _ h p hp
            obtain ⟨h1, h2⟩ := List.pairwise_cons.mp h
            cases l with
            | nil => simp at hp; subst hp; simp
            | cons b l =>
              rw [List.getLast_cons (by simp)]
              rcases List.mem_cons.mp hp with rfl | hp
              · exact h1 _ (List.getLast_mem _)
              · exact ih (by simp) h2 p hp
        exact key _ _ hp k hk

/-- **Efficiency of a chart**: wherever the point lies, whichever curves are nearest, the efficiency is within the range
of the efficiencies of the curves. `near` is the geometry, for which nothing is assumed. -/
theorem C56_chart_efficiency (near : Curve → ℚ → ℚ → ℚ × ℚ) (ch : Chart) (lo hi rate head : ℚ)
    (h : ∀ c ∈ ch.curves, ∀ p ∈ c.pts, lo ≤ p.eff ∧ p.eff ≤ hi) :
    lo ≤ ch.effAt near rate head ∧ ch.effAt near rate head ≤ hi := by
  unfold Chart.effAt
  split
  · rename_i hp
    unfold Chart.perfect at hp
    have := List.all_eq_true.mp hp ch.low (by simp [Chart.curves])
    have := List.all_eq_true.mp this ch.low.first (first_mem _)
    have e : ch.low.first.eff = 1 := by simpa using this
    have := h ch.low (by simp [Chart.curves]) ch.low.first (first_mem _)
    rw [e] at this
    exact this
  · -- one of the distances is finite after the first curve; efficiencies seen are within the bounds
    have key : ∀ (l : List Curve) (n : Near), (∀ c ∈ l, ∀ p ∈ c.pts, lo ≤ p.eff ∧ p.eff ≤ hi) →
        (n.above ≠ none → lo ≤ n.effAbove ∧ n.effAbove ≤ hi) → (n.below ≠ none → lo ≤ n.effBelow ∧ n.effBelow ≤ hi) →
        (∀ a ∈ n.above, 0 ≤ a) → (∀ b ∈ n.below, b < 0) → (l ≠ [] ∨ n.above ≠ none ∨ n.below ≠ none) →
        (fun n' : Near => (n'.above ≠ none → lo ≤ n'.effAbove ∧ n'.effAbove ≤ hi) ∧
          (n'.below ≠ none → lo ≤ n'.effBelow ∧ n'.effBelow ≤ hi) ∧ (∀ a ∈ n'.above, 0 ≤ a) ∧ (∀ b ∈ n'.below, b < 0) ∧
          (n'.above ≠ none ∨ n'.below ≠ none))
          (l.foldl (fun (n : Near) k => n.step (near k rate head).1 (k.effAt (near k rate head).2)) n) := by
      intro l
      induction l with
      | nil => intro n _ h1 h2 h3 h4 h5; exact ⟨h1, h2, h3, h4, h5.resolve_left (fun h => h rfl)⟩
      | cons c l ih =>
        intro n hl h1 h2 h3 h4 h5
        rw [List.foldl_cons]
        have he := (C56_range c lo hi (near c rate head).2).2 (hl c (by simp))
        generalize near c rate head = dr at he ⊢
        unfold Near.step
        split
        · rename_i hd
          exact ih _ (fun c hc => hl c (by simp [hc])) (fun _ => he) h2 (by simpa using hd.1) h4 (by simp)
        · rename_i hd
          split
          · rename_i hd'
            exact ih _ (fun c hc => hl c (by simp [hc])) h1 (fun _ => he) h3 (by simpa using hd'.2) (by simp)
          · rename_i hd'
            refine ih _ (fun c hc => hl c (by simp [hc])) h1 h2 h3 h4 (Or.inr ?_)
            by_contra hcon
            push Not at hcon
            obtain ⟨ha, hb⟩ := hcon
            rcases le_or_gt 0 dr.1 with h | h
            · exact hd ⟨h, by simp [ha]⟩
            · exact hd' ⟨by simp [hb], h⟩
    obtain ⟨k1, k2, k3, k4, k5⟩ := key ch.curves ⟨none, 1, none, 1⟩ h (by simp) (by simp) (by simp) (by simp)
      (Or.inl (by simp [Chart.curves]))
    generalize ch.curves.foldl (fun (n : Near) k => n.step (near k rate head).1 (k.effAt (near k rate head).2))
      ⟨none, 1, none, 1⟩ = n at k1 k2 k3 k4 k5
    simp only
    unfold Near.alpha
    cases ha : n.above with
    | none =>
      simp only
      have := k2 (k5.resolve_left (by simp [ha]))
      constructor <;> linarith
    | some a =>
      have e1 := k1 (by simp [ha])
      cases hb : n.below with
      | none => simp only; constructor <;> linarith
      | some b =>
        have e2 := k2 (by simp [hb])
        have ha0 : 0 ≤ a := k3 a (by simp [ha])
        have hb0 : b < 0 := k4 b (by simp [hb])
        have hpos : 0 < |a| + |b| := by
          have := abs_nonneg a
          have := abs_pos.mpr (ne_of_lt hb0)
          linarith
        simp only
        have t0 : 0 ≤ |a| / (|a| + |b|) := div_nonneg (abs_nonneg a) (le_of_lt hpos)
        have t1 : |a| / (|a| + |b|) ≤ 1 := by
          rw [div_le_one hpos]
          have := abs_nonneg b
          linarith
        generalize |a| / (|a| + |b|) = t at t0 t1
        constructor
        · nlinarith [mul_le_mul_of_nonneg_left e2.1 t0, mul_le_mul_of_nonneg_left e1.1 (by linarith : 0 ≤ 1 - t)]
        · nlinarith [mul_le_mul_of_nonneg_left e2.2 t0, mul_le_mul_of_nonneg_left e1.2 (by linarith : 0 ≤ 1 - t)]

/-- `a` is the curve closest to the point from above: its distance is the smallest of those that are not negative. -/
def NearestAbove (d : Curve → ℚ) (l : List Curve) (a : Curve) : Prop := a ∈ l ∧ 0 ≤ d a ∧ ∀ k ∈ l, 0 ≤ d k → d a ≤ d k

/-- `b` is the curve closest to the point from below: its distance is the largest of those that are negative. -/
def NearestBelow (d : Curve → ℚ) (l : List Curve) (b : Curve) : Prop := b ∈ l ∧ d b < 0 ∧ ∀ k ∈ l, d k < 0 → d k ≤ d b

/-- What the loop over the curves has found after the curves `l`. -/
structure Found (d e : Curve → ℚ) (l : List Curve) (n : Near) : Prop where
  noAbove : n.above = none → ∀ k ∈ l, d k < 0
  above : ∀ x, n.above = some x → ∃ a, NearestAbove d l a ∧ d a = x ∧ n.effAbove = e a
  noBelow : n.below = none → ∀ k ∈ l, 0 ≤ d k
  below : ∀ x, n.below = some x → ∃ b, NearestBelow d l b ∧ d b = x ∧ n.effBelow = e b

theorem found_step {d e : Curve → ℚ} {l : List Curve} {n : Near} (h : Found d e l n) (c : Curve) :
    Found d e (l ++ [c]) (n.step (d c) (e c)) := by
  have keepA : ∀ {a}, NearestAbove d l a → (0 ≤ d c → d a ≤ d c) → NearestAbove d (l ++ [c]) a := by
    rintro a ⟨m, p, q⟩ hc
    refine ⟨by simp [m], p, fun k hk h0 => ?_⟩
    rcases List.mem_append.mp hk with hk | hk
    · exact q k hk h0
    · rw [List.mem_singleton.mp hk] at h0 ⊢; exact hc h0
  have keepB : ∀ {a}, NearestBelow d l a → (d c < 0 → d c ≤ d a) → NearestBelow d (l ++ [c]) a := by
    rintro a ⟨m, p, q⟩ hc
    refine ⟨by simp [m], p, fun k hk h0 => ?_⟩
    rcases List.mem_append.mp hk with hk | hk
    · exact q k hk h0
    · rw [List.mem_singleton.mp hk] at h0 ⊢; exact hc h0
  unfold Near.step
  split
  · rename_i hd
    refine ⟨fun h0 => (by cases h0), ?_, ?_, ?_⟩
    · rintro x hx
      cases hx
      refine ⟨c, ⟨by simp, hd.1, fun k hk h0 => ?_⟩, rfl, rfl⟩
      rcases List.mem_append.mp hk with hk | hk
      · cases ha : n.above with
        | none => exact absurd (h.noAbove ha k hk) (not_lt.mpr h0)
        | some a =>
          obtain ⟨b, hb, rfl, -⟩ := h.above a ha
          exact le_trans (le_of_lt (hd.2 _ ha)) (hb.2.2 k hk h0)
      · rw [List.mem_singleton.mp hk]
    · intro h0 k hk
      rcases List.mem_append.mp hk with hk | hk
      · exact h.noBelow h0 k hk
      · rw [List.mem_singleton.mp hk]; exact hd.1
    · intro x hx
      obtain ⟨b, hb, e1, e2⟩ := h.below x hx
      exact ⟨b, keepB hb (fun h0 => absurd hd.1 (not_le.mpr h0)), e1, e2⟩
  · rename_i hna
    split
    · rename_i hd
      refine ⟨?_, ?_, fun h0 => (by cases h0), ?_⟩
      · intro h0 k hk
        rcases List.mem_append.mp hk with hk | hk
        · exact h.noAbove h0 k hk
        · rw [List.mem_singleton.mp hk]; exact hd.2
      · intro x hx
        obtain ⟨b, hb, e1, e2⟩ := h.above x hx
        exact ⟨b, keepA hb (fun h0 => absurd hd.2 (not_lt.mpr h0)), e1, e2⟩
      · rintro x hx
        cases hx
        refine ⟨c, ⟨by simp, hd.2, fun k hk h0 => ?_⟩, rfl, rfl⟩
        rcases List.mem_append.mp hk with hk | hk
        · cases ha : n.below with
          | none => exact absurd (h.noBelow ha k hk) (not_le.mpr h0)
          | some a =>
            obtain ⟨b, hb, rfl, -⟩ := h.below a ha
            exact le_trans (hb.2.2 k hk h0) (le_of_lt (hd.1 _ ha))
        · rw [List.mem_singleton.mp hk]
    · rename_i hnb
      refine ⟨?_, ?_, ?_, ?_⟩
      · intro h0 k hk
        rcases List.mem_append.mp hk with hk | hk
        · exact h.noAbove h0 k hk
        · rw [List.mem_singleton.mp hk]
          by_contra hc
          exact hna ⟨not_lt.mp hc, by simp [h0]⟩
      · intro x hx
        obtain ⟨b, hb, e1, e2⟩ := h.above x hx
        refine ⟨b, keepA hb (fun h0 => ?_), e1, e2⟩
        by_contra hc
        refine hna ⟨h0, fun a ha => ?_⟩
        rw [hx] at ha; cases ha
        rw [← e1]; exact not_le.mp hc
      · intro h0 k hk
        rcases List.mem_append.mp hk with hk | hk
        · exact h.noBelow h0 k hk
        · rw [List.mem_singleton.mp hk]
          by_contra hc
          exact hnb ⟨by simp [h0], not_le.mp hc⟩
      · intro x hx
        obtain ⟨b, hb, e1, e2⟩ := h.below x hx
        refine ⟨b, keepB hb (fun h0 => ?_), e1, e2⟩
        by_contra hc
        refine hnb ⟨fun a ha => ?_, h0⟩
        rw [hx] at ha; cases ha
        rw [← e1]; exact not_le.mp hc

theorem found_fold (d e : Curve → ℚ) (l : List Curve) : ∀ (pre : List Curve) (n : Near), Found d e pre n →
    Found d e (pre ++ l) (l.foldl (fun (n : Near) k => n.step (d k) (e k)) n) := by
  induction l with
  | nil => intro pre n h; simpa using h
  | cons c l ih =>
    intro pre n h
    have := ih _ _ (found_step h c)
    simpa using this

/-- **Which curves count for the efficiency**: a point with curves on both sides gets the efficiencies of the closest curve
above and the closest curve below, the closer one weighing more; a point outside the curves gets the efficiency of the
closest curve. -/
theorem C56_nearest (near : Curve → ℚ → ℚ → ℚ × ℚ) (ch : Chart) (rate head : ℚ) (hp : ch.perfect = false) :
    (∃ a b, NearestAbove (fun k => (near k rate head).1) ch.curves a ∧
      NearestBelow (fun k => (near k rate head).1) ch.curves b ∧
      ch.effAt near rate head * ((near a rate head).1 - (near b rate head).1) =
        (near a rate head).1 * b.effAt (near b rate head).2 - (near b rate head).1 * a.effAt (near a rate head).2) ∨
    (∃ a, NearestAbove (fun k => (near k rate head).1) ch.curves a ∧ (∀ k ∈ ch.curves, 0 ≤ (near k rate head).1) ∧
      ch.effAt near rate head = a.effAt (near a rate head).2) ∨
    (∃ b, NearestBelow (fun k => (near k rate head).1) ch.curves b ∧ (∀ k ∈ ch.curves, (near k rate head).1 < 0) ∧
      ch.effAt near rate head = b.effAt (near b rate head).2) := by
  have h := found_fold (fun k => (near k rate head).1) (fun k => k.effAt (near k rate head).2) ch.curves []
    ⟨none, 1, none, 1⟩ ⟨by simp, by simp, by simp, by simp⟩
  unfold Chart.effAt
  rw [if_neg (by simp [hp])]
  rw [List.nil_append] at h
  dsimp only at h ⊢
  generalize ch.curves.foldl (fun (n : Near) k => n.step (near k rate head).1 (k.effAt (near k rate head).2))
      ⟨none, 1, none, 1⟩ = n at h
  unfold Near.alpha
  cases ha : n.above with
  | none =>
    right; right
    have hall := h.noAbove ha
    cases hb : n.below with
    | none =>
      have := h.noBelow hb ch.low (by simp [Chart.curves])
      exact absurd (hall ch.low (by simp [Chart.curves])) (not_lt.mpr this)
    | some x =>
      obtain ⟨b, h1, -, h3⟩ := h.below x hb
      exact ⟨b, h1, hall, by rw [h3]; simp⟩
  | some x =>
    obtain ⟨a, a1, a2, a3⟩ := h.above x ha
    cases hb : n.below with
    | none =>
      right; left
      exact ⟨a, a1, h.noBelow hb, by rw [a3]; simp⟩
    | some y =>
      left
      obtain ⟨b, b1, b2, b3⟩ := h.below y hb
      refine ⟨a, b, a1, b1, ?_⟩
      have p := a1.2.1
      have q := b1.2.1
      dsimp only at p q a2 b2
      rw [a2] at p
      rw [b2] at q
      rw [a2, b2, a3, b3]
      dsimp only
      rw [abs_of_nonneg p, abs_of_neg q]
      have : x + -y ≠ 0 := by intro h0; linarith
      field_simp
      ring

/-- A second, faster curve. -/
def fast3 : Curve := ⟨150, ⟨300, 6000, 7/10⟩, [⟨800, 5000, 4/5⟩, ⟨1500, 3500, 3/4⟩]⟩

example : ∃ ch, Chart.userDefined [fast3, pump3] none = .ok ch ∧ ch.low = pump3 ∧ ch.high = fast3 := by
  refine ⟨⟨pump3, [fast3]⟩, ?_, rfl, rfl⟩; decide +kernel

example : (Chart.mk pump3 [fast3]).effAt (fun c _ _ => if c.speed = 100 then (-2, 500) else (1, 800)) 400 3500 = 4/5 := by
  decide +kernel

example : (Chart.mk pump3 [fast3]).perfect = false ∧
    NearestAbove (fun c => if c.speed = 100 then -2 else 1) [pump3, fast3] fast3 ∧
    NearestBelow (fun c => if c.speed = 100 then -2 else 1) [pump3, fast3] pump3 := by
  refine ⟨by decide +kernel, ⟨by simp, by decide +kernel, by decide +kernel⟩, by simp, by decide +kernel, by decide +kernel⟩

/-! ## Findings -/

/-- **Finding**: a control margin of 1 (100 %) leaves a curve with a single point, which the constructor would refuse. -/
theorem C56_full_margin (c : Curve) (h : Increasing c) : (c.adjust (some 1)).pts.length = 1 := by
  have hs := increasing_le h
  have hM : c.marginRate 1 = c.maxRate := by rw [marginRate_eq hs]; ring
  unfold Curve.adjust
  simp only [one_ne_zero, if_false, Curve.pts, List.length_cons]
  rw [hM]
  have : c.pts.filter (fun p => decide (c.maxRate < p.rate)) = [] := by
    rw [List.filter_eq_nil_iff]
    intro p hp
    have := le_last hs p hp
    simp only [decide_eq_true_eq, not_lt]
    exact this
  unfold Curve.pts at this
  rw [this]; rfl

/-- **Finding**: a margin above 1 is accepted; the remaining point lies beyond the curve and has its *largest* head. -/
theorem C56_large_margin : (pump3.adjust (some (3/2))).first = ⟨1400, 3000, 4/5⟩ ∧ pump3.headAt 1400 = 1500 := by
  decide +kernel

/-- **Finding**: a negative margin is accepted; the new first point has the *smallest* head although the curve is
constant there. -/
theorem C56_negative_margin : (pump3.adjust (some (-1/8))).first = ⟨100, 1500, 7/10⟩ ∧ pump3.headAt 100 = 3000 := by
  decide +kernel

end Verif.C56
