import Mathlib.Algebra.Order.Field.Basic
import Mathlib.Tactic.Linarith
import Mathlib.Algebra.BigOperators.Group.List.Basic
import Verif.Model.Totals
import Verif.Props.C10
import Verif.Props.C12
import Verif.Props.C48
import Verif.Lemmas.Dict

/-! # C53 — Installation and asset totals are the sums over their components -/

namespace Verif.C53
open Verif.Time Verif.Units Verif.Rates Verif.RateLemmas Verif.Totals Verif.C07 Verif.GraphLemmas

/-! ## Specification -/

/-- The number in period `i`; what is not a number counts as zero. -/
def num (xs : List Fl) (i : Nat) : ℚ := (xs[i]?.join).getD 0

/-- The calendar-day rate in period `i`. -/
def cal (s : RateTS) (i : Nat) : ℚ := match s.rateType with
  | .calendarDay => num s.values i
  | .streamDay => num s.values i * num s.regularity i

/-- Days of period number `j`. -/
def daysAt (ps : Periods) (j : Nat) : ℚ := (ps[j]?.map C10.days).getD 0

/-- What a daily rate amounts to from the start to the end of period `i`. -/
def amount (ps : Periods) (rate : Nat → ℚ) (i : Nat) : ℚ := ((List.range (i + 1)).map fun j => rate j * daysAt ps j).sum

/-- A series on the given periods in the given unit. -/
def Fits (ps : Periods) (u : EUnit) (s : RateTS) : Prop := s.periods = ps ∧ s.unit = u ∧ OnePerPeriod s

/-- A stream-day rate that is nowhere negative, and zero where the regularity is not a number. -/
def Sound (s : RateTS) : Prop :=
  s.rateType = .streamDay ∧ ∀ i, 0 ≤ num s.values i ∧ (s.regularity[i]? = some none → num s.values i = 0)

/-! ## Single series -/

theorem num_of_le {xs : List Fl} {i : Nat} (h : xs.length ≤ i) : num xs i = 0 := by
  simp [num, List.getElem?_eq_none h]

theorem num_map_nan (xs : List Fl) (i : Nat) : num (xs.map nanToNum) i = num xs i := by
  unfold num
  rw [List.getElem?_map]
  cases xs[i]? with
  | none => rfl
  | some x => rfl

theorem num_zipAdd {xs ys : List Fl} (h : xs.length = ys.length) (i : Nat) :
    num (List.zipWith Fl.add (xs.map nanToNum) (ys.map nanToNum)) i = num xs i + num ys i := by
  by_cases hi : i < xs.length
  · have hj : i < ys.length := by omega
    unfold num
    rw [List.getElem?_zipWith, List.getElem?_map, List.getElem?_map, List.getElem?_eq_getElem hi,
      List.getElem?_eq_getElem hj]
    simp [nanToNum, Fl.add]
  · rw [num_of_le (by simp; omega), num_of_le (by omega), num_of_le (by omega)]
    norm_num

theorem toCalendarDay_cal {ps : Periods} {u : EUnit} {s : RateTS} (h : Fits ps u s) :
    ∃ c, s.toCalendarDay = .ok c ∧ Fits ps u c ∧ c.rateType = .calendarDay ∧ ∀ i, num c.values i = cal s i := by
  obtain ⟨qs, vs, w, rt, reg⟩ := s
  obtain ⟨h1, h2, h3, h4⟩ := h
  simp only at h1 h2 h3 h4
  subst h1 h2
  have hl : vs.length = reg.length := by omega
  cases rt with
  | calendarDay => exact ⟨_, rfl, ⟨rfl, rfl, h3, h4⟩, rfl, fun i => rfl⟩
  | streamDay =>
    refine ⟨⟨qs, List.zipWith Fl.mul vs reg, w, .calendarDay, reg⟩, ?_, ⟨rfl, rfl, by simp [← hl, h3], h4⟩, rfl, ?_⟩
    · simp [RateTS.toCalendarDay, Rates.toCalendarDay, npOp_same hl, RateTS.make, Bind.bind, Except.bind, h4, hl]
    · intro i
      simp only [cal, num, List.getElem?_zipWith]
      rcases vs[i]? with _ | (_ | v) <;> rcases reg[i]? with _ | (_ | r) <;> simp [Fl.mul]

theorem toUnit_same {s : RateTS} {u : EUnit} (h : s.unit = u) : Totals.toUnit s u = .ok s := by
  simp [Totals.toUnit, h]

theorem add_values {ps : Periods} {u : EUnit} {s o : RateTS} (hs : Fits ps u s) (ho : Fits ps u o)
    (ht : s.rateType = o.rateType) :
    ∃ r, s.add o = .ok r ∧ Fits ps u r ∧ r.rateType = s.rateType ∧
      (∀ i, num r.values i = num s.values i + num o.values i) ∧
      (Sound s → Sound o → Sound r ∧ ∀ i, cal r i = cal s i + cal o i) := by
  obtain ⟨c1, c2, d1, d2, hc1, hc2, hd1, hd2, -, -, -, -, reg, hadd, hreg, hsame, hdiff⟩ :=
    C12.add_eq s o hs.2.2 ho.2.2 (hs.1.trans ho.1.symm) (hs.2.1.trans ho.2.1.symm) ht
  have hvl : s.values.length = o.values.length := by rw [← hs.2.2.1, ← ho.2.2.1, hs.1, ho.1]
  have hsv := hs.2.2.1
  refine ⟨_, hadd, ⟨hs.1, hs.2.1, ?_, hreg.symm⟩, rfl, fun i => num_zipAdd hvl i, ?_⟩
  · simp only [List.length_zipWith, List.length_map]; omega
  · rintro ⟨s1, s2⟩ ⟨o1, o2⟩
    have key : ∀ i, (reg[i]? = some none → num s.values i + num o.values i = 0) ∧
        (num s.values i + num o.values i) * num reg i = cal s i + cal o i := by
      intro i
      have cs : cal s i = num s.values i * num s.regularity i := by simp [cal, s1]
      have co : cal o i = num o.values i * num o.regularity i := by simp [cal, o1]
      by_cases hr : s.regularity = o.regularity ∧ none ∉ s.regularity
      · rw [hsame hr]
        refine ⟨fun h => absurd (List.mem_of_getElem? h) hr.2, ?_⟩
        rw [cs, co, ← hr.1]; ring
      · obtain ⟨c1', e1, f1, -, n1⟩ := toCalendarDay_cal hs
        obtain ⟨c2', e2, f2, -, n2⟩ := toCalendarDay_cal ho
        rw [hc1] at e1; cases e1
        rw [hc2] at e2; cases e2
        have g1 : d1 = s := by
          have := (C07_same_type_unchanged s).2 s1
          rw [hd1] at this; cases this; rfl
        have g2 : d2 = o := by
          have := (C07_same_type_unchanged o).2 o1
          rw [hd2] at this; cases this; rfl
        have hr' := hdiff hr
        rw [g1, g2] at hr'
        have hcl : c1.values.length = c2.values.length := by rw [← f1.2.2.1, ← f2.2.2.1, f1.1, f2.1]
        have hcs : c1.values.length = s.values.length := by rw [← f1.2.2.1, ← hs.2.2.1, f1.1, hs.1]
        by_cases hi : i < s.values.length
        · have A : (List.zipWith Fl.add (c1.values.map nanToNum) (c2.values.map nanToNum))[i]? =
              some (some (cal s i + cal o i)) := by
            have := num_zipAdd hcl i
            rw [n1, n2] at this
            rw [List.getElem?_zipWith, List.getElem?_map, List.getElem?_map,
              List.getElem?_eq_getElem (show i < c1.values.length by omega),
              List.getElem?_eq_getElem (show i < c2.values.length by omega)]
            rw [← n1, ← n2]
            simp [num, nanToNum, Fl.add, List.getElem?_eq_getElem (show i < c1.values.length by omega),
              List.getElem?_eq_getElem (show i < c2.values.length by omega)]
          have B : (List.zipWith Fl.add (s.values.map nanToNum) (o.values.map nanToNum))[i]? =
              some (some (num s.values i + num o.values i)) := by
            rw [List.getElem?_zipWith, List.getElem?_map, List.getElem?_map,
              List.getElem?_eq_getElem (show i < s.values.length by omega),
              List.getElem?_eq_getElem (show i < o.values.length by omega)]
            simp [num, nanToNum, Fl.add, List.getElem?_eq_getElem (show i < s.values.length by omega),
              List.getElem?_eq_getElem (show i < o.values.length by omega)]
          have R : reg[i]? = some (Fl.div (some (cal s i + cal o i)) (some (num s.values i + num o.values i))) := by
            rw [hr', List.getElem?_zipWith, A, B]
          by_cases hz : num s.values i + num o.values i = 0
          · have z1 : num s.values i = 0 := by linarith [(s2 i).1, (o2 i).1]
            have z2 : num o.values i = 0 := by linarith [(s2 i).1, (o2 i).1]
            refine ⟨fun _ => hz, ?_⟩
            rw [cs, co, z1, z2]; ring
          · have R' : num reg i = (cal s i + cal o i) / (num s.values i + num o.values i) := by
              unfold num; rw [R]
              simp only [Fl.div, Option.bind_some]
              rw [if_neg hz]; rfl
            refine ⟨?_, ?_⟩
            · rw [R]; simp [Fl.div, hz]
            · rw [R']; field_simp
        · have z1 : num s.values i = 0 := num_of_le (by omega)
          have z2 : num o.values i = 0 := num_of_le (by omega)
          refine ⟨fun _ => by rw [z1, z2]; norm_num, ?_⟩
          rw [cs, co, z1, z2]; ring
    refine ⟨⟨s1, fun i => ⟨?_, ?_⟩⟩, fun i => ?_⟩
    · simp only []
      rw [num_zipAdd hvl]
      exact add_nonneg (s2 i).1 (o2 i).1
    · intro h
      simp only [] at h ⊢
      rw [num_zipAdd hvl]
      exact (key i).1 h
    · have : cal ⟨s.periods, List.zipWith Fl.add (s.values.map nanToNum) (o.values.map nanToNum), s.unit, s.rateType, reg⟩ i =
          num (List.zipWith Fl.add (s.values.map nanToNum) (o.values.map nanToNum)) i * num reg i := by
        simp [cal, s1]
      rw [this, num_zipAdd hvl]
      exact (key i).2

/-! ## Lists of series -/

theorem fold_add {ps : Periods} {u : EUnit} (l : List RateTS) (a : RateTS) (ha : Fits ps u a)
    (hl : ∀ s ∈ l, Fits ps u s ∧ s.rateType = a.rateType) :
    ∃ r, l.foldlM RateTS.add a = .ok r ∧ Fits ps u r ∧ r.rateType = a.rateType ∧
      (∀ i, num r.values i = num a.values i + (l.map fun s => num s.values i).sum) ∧
      (Sound a → (∀ s ∈ l, Sound s) → Sound r ∧ ∀ i, cal r i = cal a i + (l.map fun s => cal s i).sum) := by
  induction l generalizing a with
  | nil => exact ⟨a, rfl, ha, rfl, by simp, fun h _ => ⟨h, by simp⟩⟩
  | cons s l ih =>
    obtain ⟨f, t⟩ := hl s (by simp)
    obtain ⟨r, h1, h2, h3, h4, h5⟩ := add_values ha f t.symm
    obtain ⟨q, k1, k2, k3, k4, k5⟩ := ih r h2 (fun x hx => ⟨(hl x (by simp [hx])).1, (hl x (by simp [hx])).2.trans h3.symm⟩)
    refine ⟨q, ?_, k2, k3.trans h3, ?_, ?_⟩
    · simp only [List.foldlM_cons, h1, Bind.bind, Except.bind]; exact k1
    · intro i; rw [k4, h4]; simp; ring
    · intro sa sl
      obtain ⟨p1, p2⟩ := h5 sa (sl s (by simp))
      obtain ⟨q1, q2⟩ := k5 p1 (fun x hx => sl x (by simp [hx]))
      exact ⟨q1, fun i => by rw [q2, p2]; simp; ring⟩

theorem reduceAdd_ok {ps : Periods} {u : EUnit} {rt : RateType} (l : List RateTS) (hne : l ≠ [])
    (hl : ∀ s ∈ l, Fits ps u s ∧ s.rateType = rt) :
    ∃ r, reduceAdd l = .ok r ∧ Fits ps u r ∧ r.rateType = rt ∧
      (∀ i, num r.values i = (l.map fun s => num s.values i).sum) ∧
      ((∀ s ∈ l, Sound s) → Sound r ∧ ∀ i, cal r i = (l.map fun s => cal s i).sum) := by
  cases l with
  | nil => exact absurd rfl hne
  | cons a l =>
    have ha := hl a (by simp)
    obtain ⟨r, h1, h2, h3, h4, h5⟩ := fold_add l a ha.1 (fun s hs => ⟨(hl s (by simp [hs])).1, (hl s (by simp [hs])).2.trans ha.2.symm⟩)
    refine ⟨r, h1, h2, h3.trans ha.2, fun i => by rw [h4]; simp, fun h => ?_⟩
    obtain ⟨p1, p2⟩ := h5 (h a (by simp)) (fun s hs => h s (by simp [hs]))
    exact ⟨p1, fun i => by rw [p2]; simp⟩

/-! ## Amounts -/

theorem nancumsum_get (xs : List Fl) (a : ℚ) (i : Nat) (hi : i < xs.length) :
    (nancumsumFrom a xs)[i]? = some (some (a + ((List.range (i + 1)).map fun j => num xs j).sum)) := by
  induction xs generalizing a i with
  | nil => simp at hi
  | cons x xs ih =>
    have h0 : num (x :: xs) 0 = x.getD 0 := by simp [num]
    have hs : ∀ j, num (x :: xs) (j + 1) = num xs j := by intro j; simp [num]
    cases i with
    | zero => simp [nancumsumFrom, List.range_succ, h0]
    | succ i =>
      simp only [nancumsumFrom, List.getElem?_cons_succ]
      rw [ih _ i (by simpa using hi), List.range_succ_eq_map (n := i + 1)]
      simp only [List.map_cons, List.map_map, List.sum_cons, Function.comp_def, h0]
      have : (List.range (i + 1)).map (fun j => num (x :: xs) (j.succ)) = (List.range (i + 1)).map fun j => num xs j :=
        List.map_congr_left fun j _ => hs j
      rw [this]
      ring_nf

theorem nancumsum_length (xs : List Fl) (a : ℚ) : (nancumsumFrom a xs).length = xs.length := by
  induction xs generalizing a with
  | nil => rfl
  | cons x xs ih => simp [nancumsumFrom, ih]

/-- Volumes of a series, NaN counted as zero. -/
theorem volumes_num {ps : Periods} {u u' : EUnit} {s : RateTS} (h : Fits ps u s) (hu : u.rateToVolume = .ok u') :
    ∃ v, s.toVolumes = .ok v ∧ v.periods = ps ∧ v.unit = u' ∧ v.values.length = ps.length ∧
      ∀ j, num v.values j = cal s j * daysAt ps j := by
  obtain ⟨c, hc, hcl, hv⟩ := C10.toVolumes_ok s h.2.2 u' (by rw [h.2.1]; exact hu)
  obtain ⟨c', e, f, -, n⟩ := toCalendarDay_cal h
  rw [hc] at e; cases e
  refine ⟨_, hv, h.1, rfl, by simp [hcl, h.1], fun j => ?_⟩
  rw [← n j, h.1]
  have hl : c.values.length = ps.length := by rw [hcl, h.1]
  simp only [num, daysAt, List.getElem?_zipWith]
  rcases hcj : c.values[j]? with _ | (_ | x) <;> rcases hpj : ps[j]? with _ | p <;> simp

theorem cumulative_amount {ps : Periods} {u u' : EUnit} {s : RateTS} (h : Fits ps u s) (hu : u.rateToVolume = .ok u') :
    ∃ v c, s.toVolumes = .ok v ∧ Rates.cumulative v = .ok c ∧ c.periods = ps ∧ c.unit = u' ∧
      c.values.length = ps.length ∧
      ∀ i, i < ps.length → c.values[i]? = some (some (amount ps (cal s) i)) := by
  obtain ⟨v, h1, h2, h3, h4, h5⟩ := volumes_num h hu
  refine ⟨v, ⟨v.periods, computeCumulative v.values, v.unit⟩, h1, ?_, h2, h3, ?_, ?_⟩
  · simp [Rates.cumulative, TS.make, computeCumulative, nancumsum_length, h2, h4]
  · simp [computeCumulative, nancumsum_length, h4]
  · intro i hi
    simp only [computeCumulative]
    rw [nancumsum_get _ _ _ (by omega)]
    simp [amount, h5]

theorem energy_amount {ps : Periods} {s : RateTS} (h : Fits ps .MEGA_WATT s) (hne : ps ≠ []) :
    ∃ c, energyGWh (some s) = .ok (some c) ∧ c.periods = ps ∧ c.unit = .GIGA_WATT_HOURS ∧
      c.values.length = ps.length ∧
      ∀ i, i < ps.length → c.values[i]? = some (some (amount ps (cal s) i * 24 / 1000)) := by
  obtain ⟨v, h1, h2, h3, h4, h5⟩ := volumes_num (u' := .MEGA_WATT_DAYS) h rfl
  have hg : v.toUnit .GIGA_WATT_HOURS = .ok ⟨ps, v.values.map (fun x => x.map (fun a => a * 24 / 1000)), .GIGA_WATT_HOURS⟩ := by
    unfold TS.toUnit
    rw [if_neg (by rw [h3]; decide), h3]
    obtain ⟨a, b, c⟩ := v
    simp only at h2; subst h2
    rfl
  have hs : s.values ≠ [] := by
    intro e
    have := h.2.2.1
    rw [h.1, e] at this
    exact hne (List.length_eq_zero_iff.1 (by simpa using this))
  have hn : ∀ j, num (v.values.map (fun x => x.map (fun a => a * 24 / 1000))) j = cal s j * daysAt ps j * 24 / 1000 := by
    intro j
    rw [← h5 j]
    simp only [num, List.getElem?_map]
    rcases v.values[j]? with _ | (_ | x) <;> simp
  refine ⟨⟨ps, computeCumulative (v.values.map (fun x => x.map (fun a => a * 24 / 1000))), .GIGA_WATT_HOURS⟩, ?_, rfl, rfl, ?_, ?_⟩
  · simp [energyGWh, truthy, hs, h1, hg, Bind.bind, Except.bind, Rates.cumulative, TS.make, computeCumulative,
      nancumsum_length, h4, Pure.pure, Except.pure]
  · simp [computeCumulative, nancumsum_length, h4]
  · intro i hi
    simp only [computeCumulative]
    rw [nancumsum_get _ _ _ (by simp; omega)]
    simp only [hn, zero_add, Option.some.injEq]
    unfold amount
    have : ∀ l : List Nat, (l.map fun j => cal s j * daysAt ps j * 24 / 1000).sum = (l.map fun j => cal s j * daysAt ps j).sum * 24 / 1000 := by
      intro l
      induction l with
      | nil => simp
      | cons a l ih => simp only [List.map_cons, List.sum_cons, ih]; ring
    exact this _

theorem amount_sum {α : Type} (ps : Periods) (l : List α) (f : α → Nat → ℚ) (i : Nat) :
    amount ps (fun j => (l.map fun s => f s j).sum) i = (l.map fun s => amount ps (f s) i).sum := by
  induction l with
  | nil => simp [amount]
  | cons a l ih =>
    simp only [List.map_cons, List.sum_cons]
    rw [← ih]
    unfold amount
    rw [← List.sum_map_add]
    congr 1
    apply List.map_congr_left
    intro j _
    ring

theorem amount_add (ps : Periods) (f g : Nat → ℚ) (i : Nat) :
    amount ps (fun j => f j + g j) i = amount ps f i + amount ps g i := by
  unfold amount
  rw [← List.sum_map_add]
  congr 1
  apply List.map_congr_left
  intro j _
  ring

/-! ## Power -/

/-- The number an optional series has in period `i`: zero when there is none. -/
def onum (o : Option RateTS) (i : Nat) : ℚ := (o.map fun s => num s.values i).getD 0

/-- Likewise for the calendar-day rate. -/
def ocal (o : Option RateTS) (i : Nat) : ℚ := (o.map fun s => cal s i).getD 0

theorem mapM_self {f : RateTS → Except Err RateTS} (l : List RateTS) (h : ∀ s ∈ l, f s = .ok s) : l.mapM f = .ok l := by
  induction l with
  | nil => rfl
  | cons a l ih =>
    rw [List.mapM_cons, h a (by simp), ih (fun s hs => h s (by simp [hs]))]
    rfl

/-- **C53, power of a group of consumers.** None without consumers; otherwise the sum in every period, and the
calendar-day rate of the sum is the sum of the calendar-day rates whatever the regularities are. -/
theorem C53_power (ps : Periods) (l : List RateTS) (hl : ∀ s ∈ l, Fits ps .MEGA_WATT s ∧ Sound s) :
    ∃ o, aggregatePower l = .ok o ∧ (o = none ↔ l = []) ∧ (∀ s, o = some s → Fits ps .MEGA_WATT s ∧ Sound s) ∧
      (∀ i, onum o i = (l.map fun s => num s.values i).sum) ∧ ∀ i, ocal o i = (l.map fun s => cal s i).sum := by
  by_cases hne : l = []
  · subst hne
    exact ⟨none, rfl, by simp, by simp, by simp [onum], by simp [ocal]⟩
  · obtain ⟨r, h1, h2, h3, h4, h5⟩ := reduceAdd_ok l hne fun s hs => ⟨(hl s hs).1, (hl s hs).2.1⟩
    obtain ⟨k1, k2⟩ := h5 fun s hs => (hl s hs).2
    refine ⟨some r, ?_, by simp [hne], ?_, fun i => by simp [onum, h4], fun i => by simp [ocal, k2]⟩
    · unfold aggregatePower
      rw [if_neg hne, mapM_self l fun s hs => toUnit_same (hl s hs).1.2.1]
      simp [Bind.bind, Except.bind, h1, Pure.pure, Except.pure]
    · intro s hs; cases hs; exact ⟨h2, k1⟩

theorem values_ne {ps : Periods} {u : EUnit} {s : RateTS} (h : Fits ps u s) (hne : ps ≠ []) : s.values ≠ [] := by
  intro e
  have := h.2.2.1
  rw [h.1, e] at this
  exact hne (List.length_eq_zero_iff.1 (by simpa using this))

theorem combine_ok (ps : Periods) (hne : ps ≠ []) (e m : Option RateTS)
    (sum : RateTS → RateTS → Except Err RateTS) (hsum : ∀ a b, sum a b = a.add b ∨ sum a b = b.add a)
    (he : ∀ s, e = some s → Fits ps .MEGA_WATT s ∧ Sound s) (hm : ∀ s, m = some s → Fits ps .MEGA_WATT s ∧ Sound s) :
    ∃ p, combine e m sum = .ok p ∧ (p = none ↔ e = none ∧ m = none) ∧
      (∀ s, p = some s → Fits ps .MEGA_WATT s ∧ Sound s) ∧
      (∀ i, onum p i = onum e i + onum m i) ∧ ∀ i, ocal p i = ocal e i + ocal m i := by
  cases e with
  | none =>
    cases m with
    | none => exact ⟨none, rfl, by simp, by simp, by simp [onum], by simp [ocal]⟩
    | some m =>
      refine ⟨some m, ?_, by simp, fun s h => hm s h, by simp [onum], by simp [ocal]⟩
      simp [combine, truthy, values_ne (hm m rfl).1 hne]
  | some e =>
    cases m with
    | none => exact ⟨some e, rfl, by simp, fun s h => he s h, by simp [onum], by simp [ocal]⟩
    | some m =>
      obtain ⟨fe, se⟩ := he e rfl
      obtain ⟨fm, sm⟩ := hm m rfl
      have key : ∃ r, sum e m = .ok r ∧ Fits ps .MEGA_WATT r ∧ Sound r ∧
          (∀ i, num r.values i = num e.values i + num m.values i) ∧ ∀ i, cal r i = cal e i + cal m i := by
        rcases hsum e m with h | h
        · obtain ⟨r, a, b, -, c, d⟩ := add_values fe fm (se.1.trans sm.1.symm)
          exact ⟨r, h.trans a, b, (d se sm).1, c, (d se sm).2⟩
        · obtain ⟨r, a, b, -, c, d⟩ := add_values fm fe (sm.1.trans se.1.symm)
          exact ⟨r, h.trans a, b, (d sm se).1, fun i => by rw [c]; ring, fun i => by rw [(d sm se).2]; ring⟩
      obtain ⟨r, a, b, c, d, f⟩ := key
      refine ⟨some r, ?_, by simp, fun s h => by cases h; exact ⟨b, c⟩, fun i => by simp [onum, d], fun i => by simp [ocal, f]⟩
      simp [combine, truthy, values_ne fe hne, values_ne fm hne, a, Except.map]

/-- What an optional cumulative series has in period `i`. -/
def ocum (o : Option (TS Fl)) (i : Nat) : ℚ := (o.map fun s => num s.values i).getD 0

theorem energy_ok (ps : Periods) (hne : ps ≠ []) (o : Option RateTS) (ho : ∀ s, o = some s → Fits ps .MEGA_WATT s) :
    ∃ c, energyGWh o = .ok c ∧ ∀ i, i < ps.length → ocum c i = amount ps (ocal o) i * 24 / 1000 := by
  cases o with
  | none => exact ⟨none, rfl, fun i _ => by simp [ocum, amount, ocal]⟩
  | some s =>
    obtain ⟨c, h1, -, -, -, h5⟩ := energy_amount (ho s rfl) hne
    refine ⟨some c, h1, fun i hi => ?_⟩
    simp only [ocum, Option.map_some, Option.getD_some, num, h5 i hi]
    rfl

/-! ## Fuel -/

/-- **C53, fuel of a group of consumers.** The sum of the calendar-day rates in every period; zero without
consumers. -/
theorem C53_fuel (ps : Periods) (l : List RateTS) (hl : ∀ s ∈ l, Fits ps .STANDARD_CUBIC_METER_PER_DAY s) :
    ∃ r, aggregateFuel ps l = .ok r ∧ Fits ps .STANDARD_CUBIC_METER_PER_DAY r ∧ r.rateType = .calendarDay ∧
      ∀ i, num r.values i = (l.map fun s => cal s i).sum := by
  by_cases hne : l = []
  · subst hne
    refine ⟨⟨ps, List.replicate ps.length (some 0), .STANDARD_CUBIC_METER_PER_DAY, .calendarDay,
      List.replicate ps.length (some 1)⟩, ?_, ⟨rfl, rfl, by simp, by simp⟩, rfl, ?_⟩
    · simp [aggregateFuel, zeroFuel, RateTS.make]
    · intro i
      simp only [num, List.map_nil, List.sum_nil, List.getElem?_replicate]
      split <;> rfl
  · have key : ∃ cs, (l.mapM fun s => do
          let s ← Totals.toUnit s .STANDARD_CUBIC_METER_PER_DAY
          s.toCalendarDay) = .ok cs ∧ cs.length = l.length ∧
        (∀ c ∈ cs, Fits ps .STANDARD_CUBIC_METER_PER_DAY c ∧ c.rateType = .calendarDay) ∧
        ∀ i, (cs.map fun c => num c.values i) = l.map fun s => cal s i := by
      clear hne
      induction l with
      | nil => exact ⟨[], rfl, rfl, by simp, by simp⟩
      | cons a l ih =>
        obtain ⟨c, h1, h2, h3, h4⟩ := toCalendarDay_cal (hl a (by simp))
        obtain ⟨cs, k1, k2, k3, k4⟩ := ih fun s hs => hl s (by simp [hs])
        refine ⟨c :: cs, ?_, by simp [k2], ?_, fun i => by simp [h4, k4]⟩
        · rw [List.mapM_cons, toUnit_same (hl a (by simp)).2.1]
          simp only [Bind.bind, Except.bind, h1] at k1 ⊢
          rw [k1]; rfl
        · intro x hx
          rcases List.mem_cons.1 hx with rfl | hx
          · exact ⟨h2, h3⟩
          · exact k3 x hx
    obtain ⟨cs, k1, k2, k3, k4⟩ := key
    obtain ⟨r, h1, h2, h3, h4, -⟩ := reduceAdd_ok cs (by
      intro e; subst e; exact hne (List.length_eq_zero_iff.1 (by simpa using k2.symm))) k3
    refine ⟨r, ?_, h2, h3, fun i => by rw [h4, k4]⟩
    unfold aggregateFuel
    rw [if_neg hne, k1]
    exact h1

/-! ## Emissions -/

/-- Rate of the named emission in period `i`; zero when there is no such emission. -/
def emitted (d : Emissions) (n : String) (i : Nat) : ℚ := ((d.lookup n).map fun s => cal s i).getD 0

/-- A dict of calendar-day emission totals. -/
def EmissionTotals (ps : Periods) (d : Emissions) : Prop :=
  (d.map (·.1)).Nodup ∧ ∀ n s, d.lookup n = some s → Fits ps .TONS_PER_DAY s ∧ s.rateType = .calendarDay

theorem cal_calendar {s : RateTS} (h : s.rateType = .calendarDay) (i : Nat) : cal s i = num s.values i := by
  simp [cal, h]

theorem emissionStep_ok (ps : Periods) (acc : Emissions) (hacc : EmissionTotals ps acc) (e : String × RateTS)
    (he : Fits ps .TONS_PER_DAY e.2) :
    ∃ r, emissionStep acc e = .ok r ∧ EmissionTotals ps r ∧
      (∀ n, r.lookup n = none ↔ acc.lookup n = none ∧ e.1 ≠ n) ∧
      ∀ n i, emitted r n i = emitted acc n i + if e.1 = n then cal e.2 i else 0 := by
  obtain ⟨c, h1, h2, h3, h4⟩ := toCalendarDay_cal he
  have nodup : ∀ x : RateTS, ((dictSet e.1 x acc).map (·.1)).Nodup := by
    intro x
    rw [DictLemmas.keys_dictSet]
    split
    · exact hacc.1
    · rename_i h
      rw [List.nodup_append]
      refine ⟨hacc.1, by simp, ?_⟩
      intro a ha b hb hab
      rw [List.mem_singleton] at hb
      rw [hab, hb] at ha
      exact h ha
  have fin : ∀ x : RateTS, Fits ps .TONS_PER_DAY x → x.rateType = .calendarDay →
      (∀ i, cal x i = emitted acc e.1 i + cal e.2 i) →
      EmissionTotals ps (dictSet e.1 x acc) ∧ (∀ n, (dictSet e.1 x acc).lookup n = none ↔ acc.lookup n = none ∧ e.1 ≠ n) ∧
      ∀ n i, emitted (dictSet e.1 x acc) n i = emitted acc n i + if e.1 = n then cal e.2 i else 0 := by
    intro x hx ht hc
    refine ⟨⟨nodup x, ?_⟩, ?_, ?_⟩
    · intro n s hs
      rw [lookup_dictSet] at hs
      split at hs
      · cases hs; exact ⟨hx, ht⟩
      · exact hacc.2 n s hs
    · intro n
      rw [lookup_dictSet]
      split
      · rename_i h; simp [h]
      · rename_i h
        constructor
        · intro h'; exact ⟨h', fun e' => h e'.symm⟩
        · exact fun h' => h'.1
    · intro n i
      by_cases h : n = e.1
      · subst h
        rw [if_pos rfl, ← hc]
        simp [emitted, lookup_dictSet]
      · rw [if_neg (Ne.symm h), add_zero]
        simp [emitted, lookup_dictSet, h]
  unfold emissionStep
  simp only [h1, Bind.bind, Except.bind]
  cases ha : acc.lookup e.1 with
  | none =>
    refine ⟨_, rfl, fin c h2 h3 fun i => ?_⟩
    rw [cal_calendar h3, h4]; simp [emitted, ha]
  | some a =>
    obtain ⟨fa, ta⟩ := hacc.2 _ _ ha
    obtain ⟨r, k1, k2, k3, k4, -⟩ := add_values fa h2 (ta.trans h3.symm)
    simp only [k1]
    refine ⟨_, rfl, fin r k2 (k3.trans ta) fun i => ?_⟩
    rw [cal_calendar (k3.trans ta), k4, h4]
    simp [emitted, ha, cal_calendar ta]

theorem emissions_ok (ps : Periods) (l : Emissions) (acc : Emissions) (hacc : EmissionTotals ps acc)
    (hl : ∀ e ∈ l, Fits ps .TONS_PER_DAY e.2) :
    ∃ r, l.foldlM emissionStep acc = .ok r ∧ EmissionTotals ps r ∧
      (∀ n, r.lookup n = none ↔ acc.lookup n = none ∧ n ∉ l.map (·.1)) ∧
      ∀ n i, emitted r n i = emitted acc n i + (l.map fun e => if e.1 = n then cal e.2 i else 0).sum := by
  induction l generalizing acc with
  | nil => exact ⟨acc, rfl, hacc, by simp, by simp⟩
  | cons e l ih =>
    obtain ⟨r, h1, h2, h3, h4⟩ := emissionStep_ok ps acc hacc e (hl e (by simp))
    obtain ⟨q, k1, k2, k3, k4⟩ := ih r h2 fun x hx => hl x (by simp [hx])
    refine ⟨q, ?_, k2, ?_, ?_⟩
    · simp only [List.foldlM_cons, h1, Bind.bind, Except.bind]; exact k1
    · intro n
      rw [k3, h3]
      simp only [List.map_cons, List.mem_cons, not_or]
      constructor
      · rintro ⟨⟨a, b⟩, c⟩; exact ⟨a, Ne.symm b, c⟩
      · rintro ⟨a, b, c⟩; exact ⟨⟨a, Ne.symm b⟩, c⟩
    · intro n i
      rw [k4, h4]; simp; ring

/-- In a dict the entries with a given name are at most one. -/
theorem sum_lookup (e : Emissions) (hn : (e.map (·.1)).Nodup) (n : String) (i : Nat) :
    (e.map fun x => if x.1 = n then cal x.2 i else 0).sum = emitted e n i := by
  induction e with
  | nil => simp [emitted]
  | cons a e ih =>
    simp only [List.map_cons, List.nodup_cons] at hn
    obtain ⟨k, s⟩ := a
    simp only [List.map_cons, List.sum_cons, ih hn.2]
    by_cases h : k = n
    · subst h
      have : e.lookup k = none := by
        rw [List.lookup_eq_none_iff]
        intro p hp
        rw [bne_iff_ne]
        intro hk
        exact hn.1 (by rw [hk]; exact List.mem_map.2 ⟨p, hp, rfl⟩)
      simp [emitted, this]
    · have hb : (n == k) = false := beq_eq_false_iff_ne.2 (Ne.symm h)
      simp [emitted, List.lookup_cons, hb, h]

/-- **C53, emissions of a group of emitters.** An emission is reported iff some emitter has it, and its rate in
every period is the sum of the calendar-day rates of the emitters that have it. -/
theorem C53_emissions (ps : Periods) (es : List Emissions)
    (hes : ∀ e ∈ es, (e.map (·.1)).Nodup ∧ ∀ x ∈ e, Fits ps .TONS_PER_DAY x.2) :
    ∃ r, aggregateEmissions es = .ok r ∧ EmissionTotals ps r ∧
      (∀ n, (∃ s, (n, s) ∈ r) ↔ ∃ e ∈ es, ∃ s, (n, s) ∈ e) ∧
      ∀ n i, emitted r n i = (es.map fun e => emitted e n i).sum := by
  have key : ∀ (es : List Emissions) (acc : Emissions), EmissionTotals ps acc →
      (∀ e ∈ es, (e.map (·.1)).Nodup ∧ ∀ x ∈ e, Fits ps .TONS_PER_DAY x.2) →
      ∃ r, es.foldlM (fun acc e => e.foldlM emissionStep acc) acc = .ok r ∧ EmissionTotals ps r ∧
        (∀ n, r.lookup n = none ↔ acc.lookup n = none ∧ ∀ e ∈ es, n ∉ e.map (·.1)) ∧
        ∀ n i, emitted r n i = emitted acc n i + (es.map fun e => emitted e n i).sum := by
    intro es
    induction es with
    | nil => exact fun acc h _ => ⟨acc, rfl, h, by simp, by simp⟩
    | cons e es ih =>
      intro acc hacc h
      obtain ⟨r, h1, h2, h3, h4⟩ := emissions_ok ps e acc hacc (h e (by simp)).2
      obtain ⟨q, k1, k2, k3, k4⟩ := ih r h2 fun x hx => h x (by simp [hx])
      refine ⟨q, ?_, k2, ?_, ?_⟩
      · simp only [List.foldlM_cons, h1, Bind.bind, Except.bind]; exact k1
      · intro n; rw [k3, h3]; simp only [List.forall_mem_cons]; tauto
      · intro n i
        rw [k4, h4, sum_lookup e (h e (by simp)).1]
        simp; ring
  obtain ⟨r, h1, h2, h3, h4⟩ := key es [] ⟨by simp, by simp⟩ hes
  refine ⟨r, h1, h2, fun n => ?_, fun n i => by rw [h4]; simp [emitted]⟩
  have := h3 n
  rw [List.lookup_eq_none_iff] at this
  simp only [List.lookup_nil, true_and, bne_iff_ne, ne_eq] at this
  constructor
  · rintro ⟨s, hs⟩
    by_contra hc
    have h' := this.2 (by
      intro e he hn
      obtain ⟨x, hx, rfl⟩ := List.mem_map.1 hn
      exact hc ⟨e, he, x.2, hx⟩) (n, s) hs
    simp at h'
  · rintro ⟨e, he, s, hs⟩
    by_contra hc
    refine this.1 (fun p hp hk => hc ⟨p.2, ?_⟩) e he (List.mem_map_of_mem hs)
    rw [hk]; exact hp

/-! ## Installations and the asset -/

/-- Electrical power on an installation: that of the consumers behind its generator sets. -/
def electricalOf (i : Installation) : List RateTS :=
  i.fuelConsumers.flatMap fun c => match c with
    | .genset _ _ consumers _ => consumers.filterMap fun k => k.power
    | .direct .. => []

/-- Mechanical power on an installation: that of the consumers burning fuel themselves. -/
def mechanicalOf (i : Installation) : List RateTS :=
  i.fuelConsumers.flatMap fun c => match c with
    | .genset .. => []
    | .direct _ _ none _ => []
    | .direct _ _ (some p) _ => [p]

/-- The fuel burnt in generator sets and by consumers burning fuel themselves. -/
def fuelOf (i : Installation) : List RateTS :=
  i.fuelConsumers.map fun c => match c with
    | .genset f _ _ _ => f
    | .direct f _ _ _ => f

/-- Emissions of what burns fuel, and of the venting emitters. -/
def emissionsOf (i : Installation) : List Emissions :=
  (i.fuelConsumers.map fun c => match c with
    | .genset _ e _ _ => e
    | .direct _ e _ _ => e) ++ i.venting

theorem electrical_eq : Installation.electrical = electricalOf := by
  funext i
  unfold Installation.electrical electricalOf
  congr 1

theorem mechanical_eq : Installation.mechanical = mechanicalOf := by
  funext i
  unfold Installation.mechanical mechanicalOf
  congr 1
  funext c
  rcases c with _ | ⟨_, _, _ | p, _⟩ <;> rfl

theorem fuel_eq : (fun i : Installation => i.fuelConsumers.map (·.fuel)) = fuelOf := by
  funext i
  unfold fuelOf
  congr 1

theorem emitters_eq : Installation.emitters = emissionsOf := by
  funext i
  unfold Installation.emitters emissionsOf
  congr 2

/-- What the components deliver: series on the model's periods in the usual units; power nowhere negative. -/
structure Healthy (ps : Periods) (i : Installation) : Prop where
  fuel : ∀ s ∈ fuelOf i, Fits ps .STANDARD_CUBIC_METER_PER_DAY s
  electrical : ∀ s ∈ electricalOf i, Fits ps .MEGA_WATT s ∧ Sound s
  mechanical : ∀ s ∈ mechanicalOf i, Fits ps .MEGA_WATT s ∧ Sound s
  emissions : ∀ e ∈ emissionsOf i, (e.map (·.1)).Nodup ∧ ∀ x ∈ e, Fits ps .TONS_PER_DAY x.2
  hc : Fits ps .STANDARD_CUBIC_METER_PER_DAY i.hcExport ∧ i.hcExport.rateType = .calendarDay

/-- Specification: `r` holds the totals of the given electrical and mechanical power consumers, fuel rates and
emitters. -/
structure IsTotal (ps : Periods) (el me fu : List RateTS) (em : List Emissions) (r : Result) : Prop where
  noPower : r.power = none ↔ el = [] ∧ me = []
  noElectrical : r.electrical = none ↔ el = []
  noMechanical : r.mechanical = none ↔ me = []
  electrical : ∀ i, onum r.electrical i = (el.map fun s => num s.values i).sum
  mechanical : ∀ i, onum r.mechanical i = (me.map fun s => num s.values i).sum
  power : ∀ i, onum r.power i = (el.map fun s => num s.values i).sum + (me.map fun s => num s.values i).sum
  electricalCumulative : ∀ i, i < ps.length →
    ocum r.electricalCumulative i = (el.map fun s => amount ps (cal s) i).sum * 24 / 1000
  mechanicalCumulative : ∀ i, i < ps.length →
    ocum r.mechanicalCumulative i = (me.map fun s => amount ps (cal s) i).sum * 24 / 1000
  powerCumulative : ∀ i, i < ps.length → ocum r.powerCumulative i =
    ((el.map fun s => amount ps (cal s) i).sum + (me.map fun s => amount ps (cal s) i).sum) * 24 / 1000
  fuel : ∀ i, num r.fuel.values i = (fu.map fun s => cal s i).sum
  fuelCumulative : ∀ i, i < ps.length → num r.fuelCumulative.values i = (fu.map fun s => amount ps (cal s) i).sum
  emissionNames : ∀ n, (∃ s, (n, s) ∈ r.emissions) ↔ ∃ e ∈ em, ∃ s, (n, s) ∈ e
  emissions : ∀ n i, emitted r.emissions n i = (em.map fun e => emitted e n i).sum

theorem totals_ok (ps : Periods) (hne : ps ≠ []) (el me fu : List RateTS) (em : List Emissions) (hc : RateTS)
    (sum : RateTS → RateTS → Except Err RateTS) (hsum : ∀ a b, sum a b = a.add b ∨ sum a b = b.add a)
    (hel : ∀ s ∈ el, Fits ps .MEGA_WATT s ∧ Sound s) (hme : ∀ s ∈ me, Fits ps .MEGA_WATT s ∧ Sound s)
    (hfu : ∀ s ∈ fu, Fits ps .STANDARD_CUBIC_METER_PER_DAY s)
    (hem : ∀ e ∈ em, (e.map (·.1)).Nodup ∧ ∀ x ∈ e, Fits ps .TONS_PER_DAY x.2) :
    ∃ r, totals ps el me fu em hc sum = .ok r ∧ IsTotal ps el me fu em r ∧ r.hcExport = hc := by
  obtain ⟨e, e1, e2, e3, e4, e5⟩ := C53_power ps el hel
  obtain ⟨m, m1, m2, m3, m4, m5⟩ := C53_power ps me hme
  obtain ⟨p, p1, p2, p3, p4, p5⟩ := combine_ok ps hne e m sum hsum e3 m3
  obtain ⟨pc, pc1, pc2⟩ := energy_ok ps hne p fun s h => (p3 s h).1
  obtain ⟨ec, ec1, ec2⟩ := energy_ok ps hne e fun s h => (e3 s h).1
  obtain ⟨mc, mc1, mc2⟩ := energy_ok ps hne m fun s h => (m3 s h).1
  obtain ⟨f, f1, f2, f3, f4⟩ := C53_fuel ps fu hfu
  obtain ⟨v, c, v1, c1, -, -, -, c2⟩ := cumulative_amount (u' := .STANDARD_CUBIC_METER) f2 rfl
  obtain ⟨ems, x1, -, x2, x3⟩ := C53_emissions ps em hem
  have ce : ocal e = fun j => (el.map fun s => cal s j).sum := funext e5
  have cm : ocal m = fun j => (me.map fun s => cal s j).sum := funext m5
  have cp : ocal p = fun j => (el.map fun s => cal s j).sum + (me.map fun s => cal s j).sum := by
    funext j; rw [p5, e5, m5]
  have cf : cal f = fun j => (fu.map fun s => cal s j).sum := by
    funext j; rw [cal_calendar f3, f4]
  refine ⟨⟨p, pc, e, ec, m, mc, f, c, hc, ems⟩, ?_, ⟨?_, e2, m2, e4, m4, ?_, ?_, ?_, ?_, f4, ?_, x2, x3⟩, rfl⟩
  · simp only [totals, e1, m1, p1, pc1, ec1, mc1, f1, v1, c1, x1, Bind.bind, Except.bind, Pure.pure, Except.pure]
  · simp only []; rw [p2, e2, m2]
  · intro i; simp only []; rw [p4, e4, m4]
  · intro i hi; simp only []; rw [ec2 i hi, ce, amount_sum]
  · intro i hi; simp only []; rw [mc2 i hi, cm, amount_sum]
  · intro i hi; simp only []; rw [pc2 i hi, cp, amount_add, amount_sum, amount_sum]
  · intro i hi
    simp only []
    have := c2 i hi
    rw [cf, amount_sum] at this
    simp [num, this]

/-- **C53, installation.** Every total of an installation is the sum over its components. -/
theorem C53_installation (ps : Periods) (hne : ps ≠ []) (i : Installation) (h : Healthy ps i) :
    ∃ r, installation ps i = .ok r ∧
      IsTotal ps (electricalOf i) (mechanicalOf i) (fuelOf i) (emissionsOf i) r ∧ r.hcExport = i.hcExport := by
  unfold installation
  rw [electrical_eq, mechanical_eq, emitters_eq, congrFun fuel_eq i]
  exact totals_ok ps hne _ _ _ _ _ _ (fun _ _ => .inl rfl) h.electrical h.mechanical h.fuel h.emissions

/-- Whatever the periods, even none at all: a total power is reported whenever an electrical one is. -/
theorem C53_power_reported (ps : Periods) (i : Installation) (r : Result) (h : installation ps i = .ok r)
    (he : r.electrical ≠ none) : r.power ≠ none := by
  unfold installation totals at h
  obtain ⟨e, -, h⟩ := C48.bind_ok h
  obtain ⟨m, -, h⟩ := C48.bind_ok h
  obtain ⟨p, hp, h⟩ := C48.bind_ok h
  obtain ⟨pc, -, h⟩ := C48.bind_ok h
  obtain ⟨ec, -, h⟩ := C48.bind_ok h
  obtain ⟨mc, -, h⟩ := C48.bind_ok h
  obtain ⟨f, -, h⟩ := C48.bind_ok h
  obtain ⟨fv, -, h⟩ := C48.bind_ok h
  obtain ⟨fc, -, h⟩ := C48.bind_ok h
  obtain ⟨em, -, h⟩ := C48.bind_ok h
  cases h
  simp only at he ⊢
  rcases e with _ | e
  · exact absurd rfl he
  rcases m with _ | m
  · simp [combine, truthy] at hp
    rw [← hp]; simp
  · simp only [combine] at hp
    by_cases h1 : (truthy (some e) && truthy (some m)) = true
    · rw [if_pos h1] at hp
      cases hs : e.add m with
      | error x => rw [hs] at hp; cases hp
      | ok v => rw [hs] at hp; cases hp; simp
    · rw [if_neg h1] at hp
      by_cases h2 : truthy (some m) = true
      · rw [if_pos h2] at hp; cases hp; simp
      · rw [if_neg h2] at hp; cases hp; simp

/-- Specification: every figure of `a` is the sum of that figure over `rs`. -/
structure AddsUp (ps : Periods) (a : Result) (rs : List Result) : Prop where
  power : ∀ i, onum a.power i = (rs.map fun r => onum r.power i).sum
  electrical : ∀ i, onum a.electrical i = (rs.map fun r => onum r.electrical i).sum
  mechanical : ∀ i, onum a.mechanical i = (rs.map fun r => onum r.mechanical i).sum
  powerCumulative : ∀ i, i < ps.length → ocum a.powerCumulative i = (rs.map fun r => ocum r.powerCumulative i).sum
  electricalCumulative : ∀ i, i < ps.length →
    ocum a.electricalCumulative i = (rs.map fun r => ocum r.electricalCumulative i).sum
  mechanicalCumulative : ∀ i, i < ps.length →
    ocum a.mechanicalCumulative i = (rs.map fun r => ocum r.mechanicalCumulative i).sum
  fuel : ∀ i, num a.fuel.values i = (rs.map fun r => num r.fuel.values i).sum
  fuelCumulative : ∀ i, i < ps.length →
    num a.fuelCumulative.values i = (rs.map fun r => num r.fuelCumulative.values i).sum
  hcExport : ∀ i, num a.hcExport.values i = (rs.map fun r => num r.hcExport.values i).sum
  emissions : ∀ n i, emitted a.emissions n i = (rs.map fun r => emitted r.emissions n i).sum
  emissionNames : ∀ n, (∃ s, (n, s) ∈ a.emissions) ↔ ∃ r ∈ rs, ∃ s, (n, s) ∈ r.emissions
  hasPower : a.power = none ↔ ∀ r ∈ rs, r.power = none

theorem sum_flatMap {α β : Type} (l : List α) (f : α → List β) (g : β → ℚ) :
    ((l.flatMap f).map g).sum = (l.map fun a => ((f a).map g).sum).sum := by
  induction l with
  | nil => rfl
  | cons a l ih => simp [List.flatMap_cons, ih]

/-- **C53, asset.** Every total of the asset is the sum of that total over the installations, although the asset is
summed over the consumers directly: rates, cumulative amounts and emissions alike, with any regularities. -/
theorem C53_asset (ps : Periods) (hne : ps ≠ []) (is : List Installation) (his : is ≠ [])
    (h : ∀ i ∈ is, Healthy ps i) :
    ∃ a rs, asset ps is = .ok a ∧ is.mapM (installation ps) = .ok rs ∧ AddsUp ps a rs := by
  -- installations
  have key : ∀ is : List Installation, (∀ i ∈ is, Healthy ps i) →
      ∃ rs, is.mapM (installation ps) = .ok rs ∧ List.Forall₂ (fun i r =>
        IsTotal ps (electricalOf i) (mechanicalOf i) (fuelOf i) (emissionsOf i) r ∧ r.hcExport = i.hcExport) is rs := by
    intro is
    induction is with
    | nil => exact fun _ => ⟨[], rfl, .nil⟩
    | cons i is ih =>
      intro h
      obtain ⟨r, h1, h2⟩ := C53_installation ps hne i (h i (by simp))
      obtain ⟨rs, k1, k2⟩ := ih fun x hx => h x (by simp [hx])
      exact ⟨r :: rs, by rw [List.mapM_cons, h1, k1]; rfl, .cons h2 k2⟩
  obtain ⟨rs, hrs, hf⟩ := key is h
  -- hydrocarbon export
  obtain ⟨hc, c1, c2, -, c4, -⟩ := reduceAdd_ok (is.map (·.hcExport)) (by simpa using his) (by
    intro s hs
    obtain ⟨i, hi, rfl⟩ := List.mem_map.1 hs
    exact (h i hi).hc)
  obtain ⟨a, a1, a2, a3⟩ := totals_ok ps hne (is.flatMap electricalOf) (is.flatMap mechanicalOf)
    (is.flatMap fuelOf) (is.flatMap emissionsOf) hc (fun e m => m.add e)
    (fun _ _ => .inr rfl)
    (by intro s hs; obtain ⟨i, hi, hs⟩ := List.mem_flatMap.1 hs; exact (h i hi).electrical s hs)
    (by intro s hs; obtain ⟨i, hi, hs⟩ := List.mem_flatMap.1 hs; exact (h i hi).mechanical s hs)
    (by intro s hs; obtain ⟨i, hi, hs⟩ := List.mem_flatMap.1 hs; exact (h i hi).fuel s hs)
    (by intro s hs; obtain ⟨i, hi, hs⟩ := List.mem_flatMap.1 hs; exact (h i hi).emissions s hs)
  have comb : ∀ (F : Installation → ℚ) (G : Result → ℚ),
      (∀ i r, (IsTotal ps (electricalOf i) (mechanicalOf i) (fuelOf i) (emissionsOf i) r ∧
        r.hcExport = i.hcExport) → F i = G r) → (is.map F).sum = (rs.map G).sum := by
    intro F G hFG
    clear c1 c2 c4 a1 a2 his h key hrs
    induction hf with
    | nil => rfl
    | cons h1 _ ih => simp [hFG _ _ h1, ih]
  have split2 : ∀ (F G : Installation → ℚ), (is.map F).sum + (is.map G).sum = (is.map fun i => F i + G i).sum := by
    intro F G; rw [List.sum_map_add]
  have scale : ∀ (F : Installation → ℚ), (is.map F).sum * 24 / 1000 = (is.map fun i => F i * 24 / 1000).sum := by
    intro F
    clear c1 c2 c4 a1 a2 his h key hrs hf comb split2
    induction is with
    | nil => simp
    | cons i is ih => simp only [List.map_cons, List.sum_cons, ← ih]; ring
  refine ⟨a, rs, by
    simp only [asset, c1, Bind.bind, Except.bind]
    rw [electrical_eq, mechanical_eq, emitters_eq, fuel_eq]
    exact a1, hrs, ?_⟩
  constructor
  · intro j; rw [a2.power, sum_flatMap, sum_flatMap, split2]
    exact comb _ _ fun i r hr => (hr.1.power j).symm
  · intro j; rw [a2.electrical, sum_flatMap]
    exact comb _ _ fun i r hr => (hr.1.electrical j).symm
  · intro j; rw [a2.mechanical, sum_flatMap]
    exact comb _ _ fun i r hr => (hr.1.mechanical j).symm
  · intro j hj; rw [a2.powerCumulative j hj, sum_flatMap, sum_flatMap, split2, scale]
    exact comb _ _ fun i r hr => (hr.1.powerCumulative j hj).symm
  · intro j hj; rw [a2.electricalCumulative j hj, sum_flatMap, scale]
    exact comb _ _ fun i r hr => (hr.1.electricalCumulative j hj).symm
  · intro j hj; rw [a2.mechanicalCumulative j hj, sum_flatMap, scale]
    exact comb _ _ fun i r hr => (hr.1.mechanicalCumulative j hj).symm
  · intro j; rw [a2.fuel, sum_flatMap]
    exact comb _ _ fun i r hr => (hr.1.fuel j).symm
  · intro j hj; rw [a2.fuelCumulative j hj, sum_flatMap]
    exact comb _ _ fun i r hr => (hr.1.fuelCumulative j hj).symm
  · intro j; rw [a3, c4, List.map_map]
    exact comb _ _ fun i r hr => by rw [hr.2]; rfl
  · intro n j; rw [a2.emissions, sum_flatMap]
    exact comb _ _ fun i r hr => (hr.1.emissions n j).symm
  · intro n
    rw [a2.emissionNames]
    have : ∀ (is : List Installation) (rs : List Result), List.Forall₂ (fun i r =>
        IsTotal ps (electricalOf i) (mechanicalOf i) (fuelOf i) (emissionsOf i) r ∧ r.hcExport = i.hcExport) is rs →
        ((∃ e ∈ is.flatMap emissionsOf, ∃ s, (n, s) ∈ e) ↔ ∃ r ∈ rs, ∃ s, (n, s) ∈ r.emissions) := by
      intro is rs hf
      induction hf with
      | nil => simp
      | cons h1 _ ih =>
        rename_i i r is' rs'
        have := h1.1.emissionNames n
        simp only [List.flatMap_cons, List.mem_append, List.mem_cons, or_and_right, exists_or, exists_eq_left, ← this, ← ih]
    exact this is rs hf
  · rw [a2.noPower]
    have : ∀ (is : List Installation) (rs : List Result), List.Forall₂ (fun i r =>
        IsTotal ps (electricalOf i) (mechanicalOf i) (fuelOf i) (emissionsOf i) r ∧ r.hcExport = i.hcExport) is rs →
        ((is.flatMap electricalOf = [] ∧ is.flatMap mechanicalOf = []) ↔ ∀ r ∈ rs, r.power = none) := by
      intro is rs hf
      induction hf with
      | nil => simp
      | cons h1 _ ih =>
        have := h1.1.noPower
        simp only [List.flatMap_cons, List.append_eq_nil_iff, List.forall_mem_cons, this, ← ih]
        tauto
    exact this is rs hf

/-! ## Validity -/

/-- One truth value per period of the model. -/
def BoolFits (ps : Periods) (s : TS Bool) : Prop := s.periods = ps ∧ s.values.length = ps.length

theorem validity_ok (ps : Periods) (l : List (TS Bool)) (hne : l ≠ []) (hl : ∀ s ∈ l, BoolFits ps s) :
    ∃ r, validity l = .ok r ∧ BoolFits ps r ∧ ∀ i, i < ps.length → (r.values[i]? = some true ↔ ∀ s ∈ l, s.values[i]? = some true) := by
  have key : ∀ (l : List (TS Bool)) (a : TS Bool), BoolFits ps a → (∀ s ∈ l, BoolFits ps s) →
      ∃ r, l.foldlM mulBool a = .ok r ∧ BoolFits ps r ∧ ∀ i, i < ps.length →
        (r.values[i]? = some true ↔ a.values[i]? = some true ∧ ∀ s ∈ l, s.values[i]? = some true) := by
    intro l
    induction l with
    | nil => exact fun a ha _ => ⟨a, rfl, ha, by simp⟩
    | cons s l ih =>
      intro a ha h
      obtain ⟨s1, s2⟩ := h s (by simp)
      have hm : mulBool a s = .ok ⟨a.periods, List.zipWith (· && ·) a.values s.values, a.unit⟩ := by
        unfold mulBool TS.make
        rw [if_pos]
        simp [ha.1, ha.2, s2]
      obtain ⟨r, h1, h2, h3⟩ := ih ⟨a.periods, List.zipWith (· && ·) a.values s.values, a.unit⟩
        ⟨ha.1, by simp [ha.2, s2]⟩ (fun x hx => h x (by simp [hx]))
      refine ⟨r, by simp only [List.foldlM_cons, hm, Bind.bind, Except.bind]; exact h1, h2, fun i hi => ?_⟩
      rw [h3 i hi]
      simp only [List.getElem?_zipWith, List.getElem?_eq_getElem (show i < a.values.length by rw [ha.2]; exact hi),
        List.getElem?_eq_getElem (show i < s.values.length by rw [s2]; exact hi), List.forall_mem_cons,
        Option.some.injEq, Bool.and_eq_true]
      tauto
  cases l with
  | nil => exact absurd rfl hne
  | cons a l =>
    obtain ⟨r, h1, h2, h3⟩ := key l a (hl a (by simp)) fun s hs => hl s (by simp [hs])
    exact ⟨r, h1, h2, fun i hi => by rw [h3 i hi]; simp⟩

/-- Whose validity counts for a member of `fuel_consumers`: its own, and for a generator set that of everyone it
supplies. -/
inductive Inside : FuelConsumer → TS Bool → Prop
  | genset (f e cs v) : Inside (.genset f e cs v) v
  | supplied (f e cs v) (c : Electrical) (h : c ∈ cs) : Inside (.genset f e cs v) c.valid
  | direct (f e p v) : Inside (.direct f e p v) v

theorem inside_iff (c : FuelConsumer) (w : TS Bool) : w ∈ c.validities ↔ Inside c w := by
  constructor
  · intro h
    cases c with
    | genset f e cs v =>
      rcases List.mem_cons.1 h with rfl | h
      · exact .genset _ _ _ _
      · obtain ⟨x, hx, rfl⟩ := List.mem_map.1 h
        exact .supplied _ _ _ _ x hx
    | direct f e p v =>
      obtain rfl := List.mem_singleton.1 h
      exact .direct _ _ _ _
  · rintro (_ | ⟨_, _, _, _, x, hx⟩ | _)
    · exact List.mem_cons_self
    · exact List.mem_cons_of_mem _ (List.mem_map.2 ⟨x, hx, rfl⟩)
    · exact List.mem_singleton.2 rfl

theorem validity_aux (ps : Periods) (is : List Installation) (orders : List (List (TS Bool))) (his : is ≠ [])
    (hperm : List.Forall₂ (fun i o => List.Perm o (i.children ps)) is orders) (hne : ∀ i ∈ is, i.children ps ≠ [])
    (hfit : ∀ i ∈ is, ∀ c ∈ i.fuelConsumers, ∀ v ∈ c.validities, BoolFits ps v) :
    ∃ vs, orders.mapM validity = .ok vs ∧
      List.Forall₂ (fun i v => BoolFits ps v ∧ ∀ k, k < ps.length →
        (v.values[k]? = some true ↔ ∀ c ∈ i.fuelConsumers, ∀ w ∈ c.validities, w.values[k]? = some true)) is vs ∧
      ∀ all, all.Perm (vs ++ orders.flatten) → ∃ a, validity all = .ok a ∧ BoolFits ps a ∧ ∀ k, k < ps.length →
        (a.values[k]? = some true ↔
          ∀ i ∈ is, ∀ c ∈ i.fuelConsumers, ∀ w ∈ c.validities, w.values[k]? = some true) := by
  have fits : ∀ i ∈ is, ∀ v ∈ i.children ps, BoolFits ps v := by
    intro i hi v hv
    unfold Installation.children at hv
    rcases List.mem_append.1 hv with hv | hv
    · obtain ⟨c, hc, hv⟩ := List.mem_flatMap.1 hv
      exact hfit i hi c hc v hv
    · obtain ⟨_, _, rfl⟩ := List.mem_map.1 hv
      exact ⟨rfl, by simp [allTrue]⟩
  have inner : ∀ (i : Installation) (k : Nat), k < ps.length → ((∀ v ∈ i.children ps, v.values[k]? = some true) ↔
      ∀ c ∈ i.fuelConsumers, ∀ w ∈ c.validities, w.values[k]? = some true) := by
    intro i k hk
    unfold Installation.children
    constructor
    · intro h c hc w hw
      exact h w (List.mem_append_left _ (List.mem_flatMap.2 ⟨c, hc, hw⟩))
    · intro h v hv
      rcases List.mem_append.1 hv with hv | hv
      · obtain ⟨c, hc, hv⟩ := List.mem_flatMap.1 hv
        exact h c hc v hv
      · obtain ⟨_, _, rfl⟩ := List.mem_map.1 hv
        simp [allTrue, List.getElem?_replicate, hk]
  have key : ∀ (is : List Installation) (orders : List (List (TS Bool))),
      List.Forall₂ (fun i o => List.Perm o (i.children ps)) is orders → (∀ i ∈ is, i.children ps ≠ []) →
      (∀ i ∈ is, ∀ v ∈ i.children ps, BoolFits ps v) →
      ∃ vs, orders.mapM validity = .ok vs ∧
        List.Forall₂ (fun i v => BoolFits ps v ∧ ∀ k, k < ps.length →
          (v.values[k]? = some true ↔ ∀ c ∈ i.fuelConsumers, ∀ w ∈ c.validities, w.values[k]? = some true)) is vs ∧
        (∀ v ∈ vs ++ orders.flatten, BoolFits ps v) ∧
        ∀ k, k < ps.length → ((∀ v ∈ vs ++ orders.flatten, v.values[k]? = some true) ↔
          ∀ i ∈ is, ∀ c ∈ i.fuelConsumers, ∀ w ∈ c.validities, w.values[k]? = some true) := by
    intro is orders hp
    induction hp with
    | nil => exact fun _ _ => ⟨[], rfl, .nil, by simp, by simp⟩
    | cons h1 h2 ih =>
      rename_i i o is' os'
      intro hne hfits
      have ho : ∀ v ∈ o, BoolFits ps v := fun v hv => hfits i (by simp) v (h1.mem_iff.1 hv)
      obtain ⟨r, r1, r2, r3⟩ := validity_ok ps o (by
        intro e; subst e; exact hne i (by simp) (List.nil_perm.1 h1)) ho
      obtain ⟨vs, k1, k2, k3, k4⟩ := ih (fun x hx => hne x (by simp [hx])) fun x hx => hfits x (by simp [hx])
      have hr : ∀ k, k < ps.length → (r.values[k]? = some true ↔
          ∀ c ∈ i.fuelConsumers, ∀ w ∈ c.validities, w.values[k]? = some true) := by
        intro k hk
        rw [r3 k hk, ← inner i k hk]
        exact ⟨fun h v hv => h v (h1.mem_iff.2 hv), fun h v hv => h v (h1.mem_iff.1 hv)⟩
      refine ⟨r :: vs, by rw [List.mapM_cons, r1, k1]; rfl, .cons ⟨r2, hr⟩ k2, ?_, ?_⟩
      · intro v hv
        simp only [List.flatten_cons, List.cons_append, List.mem_cons, List.mem_append] at hv
        rcases hv with rfl | hv | hv | hv
        · exact r2
        · exact k3 v (by simp [hv])
        · exact ho v hv
        · exact k3 v (by rw [List.mem_append]; exact .inr hv)
      · intro k hk
        rw [List.forall_mem_cons, ← k4 k hk, ← hr k hk]
        constructor
        · intro h
          refine ⟨h r (by simp), fun v hv => h v ?_⟩
          simp only [List.flatten_cons, List.cons_append, List.mem_cons, List.mem_append] at hv ⊢
          tauto
        · rintro ⟨ha, hb⟩ v hv
          simp only [List.flatten_cons, List.cons_append, List.mem_cons, List.mem_append] at hv hb
          rcases hv with rfl | hv | hv | hv
          · exact ha
          · exact hb v (.inl hv)
          · exact (r3 k hk).1 ha v hv
          · exact hb v (.inr hv)
  obtain ⟨vs, k1, k2, k3, k4⟩ := key is orders hperm hne fits
  refine ⟨vs, k1, k2, fun all hall => ?_⟩
  obtain ⟨a, a1, a2, a3⟩ := validity_ok ps all (by
    intro e; subst e
    have := List.nil_perm.1 hall
    rw [List.append_eq_nil_iff] at this
    rw [this.1] at k2
    cases k2
    exact his rfl) fun v hv => k3 v (hall.mem_iff.1 hv)
  refine ⟨a, a1, a2, fun k hk => ?_⟩
  rw [a3 k hk, ← k4 k hk]
  exact ⟨fun h v hv => h v (hall.mem_iff.2 hv), fun h v hv => h v (hall.mem_iff.1 hv)⟩

/-- **C53, validity.** An installation is valid in a period iff everything inside it is; the asset iff everything
inside all installations is. The order in which the graph lists the descendants does not matter, nor that the asset's
descendants include the installations themselves. -/
theorem C53_validity (ps : Periods) (is : List Installation) (orders : List (List (TS Bool))) (his : is ≠ [])
    (hperm : List.Forall₂ (fun i o => List.Perm o (i.children ps)) is orders) (hne : ∀ i ∈ is, i.children ps ≠ [])
    (hfit : ∀ i ∈ is, ∀ c ∈ i.fuelConsumers, ∀ v, Inside c v → BoolFits ps v) :
    ∃ vs, orders.mapM validity = .ok vs ∧
      List.Forall₂ (fun i v => BoolFits ps v ∧ ∀ k, k < ps.length →
        (v.values[k]? = some true ↔ ∀ c ∈ i.fuelConsumers, ∀ w, Inside c w → w.values[k]? = some true)) is vs ∧
      ∀ all, all.Perm (vs ++ orders.flatten) → ∃ a, validity all = .ok a ∧ BoolFits ps a ∧ ∀ k, k < ps.length →
        (a.values[k]? = some true ↔
          ∀ i ∈ is, ∀ c ∈ i.fuelConsumers, ∀ w, Inside c w → w.values[k]? = some true) := by
  simp only [← inside_iff] at hfit ⊢
  exact validity_aux ps is orders his hperm hne hfit

theorem toUnit_refused (s : RateTS) (u : EUnit) (hu : u = .MEGA_WATT ∨ u = .STANDARD_CUBIC_METER_PER_DAY)
    (hs : s.unit ≠ u) (hv : s.values ≠ []) : toUnit s u = .error .notImplemented := by
  unfold toUnit EUnit.to
  rw [if_neg (Ne.symm hs), if_neg hs]
  have : registry s.unit u = none := by
    rcases hu with rfl | rfl <;> cases s.unit <;> rfl
  simp only [this, if_neg hv]

theorem mapM_refused {α β : Type} (f : α → Except Err β) (e : Err) (l : List α) (h : ∃ a ∈ l, f a = .error e)
    (hall : ∀ a ∈ l, (∃ b, f a = .ok b) ∨ f a = .error e) : l.mapM f = .error e := by
  induction l with
  | nil => obtain ⟨a, ha, -⟩ := h; simp at ha
  | cons a l ih =>
    rw [List.mapM_cons]
    rcases hall a (by simp) with ⟨b, hb⟩ | hb
    · have : l.mapM f = .error e := by
        refine ih ?_ fun x hx => hall x (by simp [hx])
        obtain ⟨x, hx, he⟩ := h
        rcases List.mem_cons.1 hx with rfl | hx
        · rw [hb] at he; cases he
        · exact ⟨x, hx, he⟩
      rw [hb, this]; rfl
    · rw [hb]; rfl

/-- Power in any other unit than megawatt is refused, wherever it is in the list: figures are never added across
units. -/
theorem C53_unit (l : List RateTS) (hl : ∀ s ∈ l, s.values ≠ []) (h : ∃ s ∈ l, s.unit ≠ .MEGA_WATT) :
    aggregatePower l = .error .notImplemented := by
  obtain ⟨s, hs, hu⟩ := h
  have : l.mapM (toUnit · .MEGA_WATT) = .error .notImplemented := by
    refine mapM_refused _ _ l ⟨s, hs, toUnit_refused s _ (.inl rfl) hu (hl s hs)⟩ fun x hx => ?_
    by_cases hx' : x.unit = .MEGA_WATT
    · exact .inl ⟨x, by unfold toUnit; rw [if_pos hx'.symm]⟩
    · exact .inr (toUnit_refused x _ (.inl rfl) hx' (hl x hx))
  unfold aggregatePower
  rw [if_neg (fun e => by rw [e] at hs; simp at hs), this]
  rfl

/-- An installation without consumers and emitters is an error (AssertionError). -/
theorem C53_empty_installation (ps : Periods) (hc : RateTS) : validity (Installation.children ps ⟨[], [], hc⟩) = .error .assertion :=
  rfl

/-! ## Examples -/

/-- One day, from midnight to midnight. -/
def day : Periods := [⟨0, 86400000000⟩]

/-- A generator set burning 10 Sm3 per stream day with a consumer of 2 MW, and a compressor burning 4 with 1 MW. -/
def plant (reg : ℚ) : Installation :=
  ⟨[.genset ⟨day, [some 10], .STANDARD_CUBIC_METER_PER_DAY, .streamDay, [some reg]⟩
      [("co2", ⟨day, [some 6], .TONS_PER_DAY, .streamDay, [some reg]⟩)]
      [⟨some ⟨day, [some 2], .MEGA_WATT, .streamDay, [some reg]⟩, ⟨day, [true], .NONE⟩⟩] ⟨day, [true], .NONE⟩,
    .direct ⟨day, [some 4], .STANDARD_CUBIC_METER_PER_DAY, .streamDay, [some reg]⟩
      [("co2", ⟨day, [some 2], .TONS_PER_DAY, .streamDay, [some reg]⟩)]
      (some ⟨day, [some 1], .MEGA_WATT, .streamDay, [some reg]⟩) ⟨day, [true], .NONE⟩],
    [[("ch4", ⟨day, [some 1], .TONS_PER_DAY, .streamDay, [some reg]⟩)]],
    ⟨day, [some 100], .STANDARD_CUBIC_METER_PER_DAY, .calendarDay, [some reg]⟩⟩

/-- Non-vacuity: the asset of two such plants at regularities 1 and 1/2. -/
example : ∃ a, asset day [plant 1, plant (1/2)] = .ok a ∧ a.power.map (·.values) = some [some 6] ∧
    a.power.map (·.regularity) = some [some (3/4)] ∧ a.powerCumulative.map (·.values) = some [some (9/2 * 24 / 1000)] ∧
    a.fuel.values = [some 21] ∧ a.emissions.map (fun e => (e.1, e.2.values)) = [("co2", [some 12]), ("ch4", [some (3/2)])] ∧
    a.hcExport.values = [some 200] := by
  have h1 : ((asset day [plant 1, plant (1/2)]).toOption.map fun a => (a.power.map (·.values), a.power.map (·.regularity),
      a.powerCumulative.map (·.values))) = some (some [some 6], some [some (3/4)], some [some (9/2 * 24 / 1000)]) := by
    decide +kernel
  have h2 : ((asset day [plant 1, plant (1/2)]).toOption.map fun a => (a.fuel.values,
      a.emissions.map (fun e => (e.1, e.2.values)), a.hcExport.values)) =
      some ([some 21], [("co2", [some 12]), ("ch4", [some (3/2)])], [some 200]) := by decide +kernel
  cases h : asset day [plant 1, plant (1/2)] with
  | error e => rw [h] at h1; cases h1
  | ok a =>
    rw [h] at h1 h2
    simp only [Except.toOption, Option.map_some, Option.some.injEq, Prod.mk.injEq] at h1 h2
    exact ⟨a, rfl, h1.1, h1.2.1, h1.2.2, h2⟩

theorem plant_healthy (reg : ℚ) : Healthy day (plant reg) := by
  have snd : ∀ v : ℚ, 0 ≤ v → Sound ⟨day, [some v], .MEGA_WATT, .streamDay, [some reg]⟩ := by
    intro v hv
    refine ⟨rfl, fun i => ?_⟩
    cases i with
    | zero => exact ⟨by simpa [num] using hv, by simp⟩
    | succ i => exact ⟨by simp [num], by simp⟩
  constructor
  · intro c hc
    simp only [plant, fuelOf, List.map_cons, List.map_nil, List.mem_cons, List.not_mem_nil, or_false] at hc
    rcases hc with rfl | rfl <;> exact ⟨rfl, rfl, rfl, rfl⟩
  · intro s hs
    simp [plant, electricalOf] at hs
    subst hs
    exact ⟨⟨rfl, rfl, rfl, rfl⟩, snd 2 (by norm_num)⟩
  · intro s hs
    simp [plant, mechanicalOf] at hs
    subst hs
    exact ⟨⟨rfl, rfl, rfl, rfl⟩, snd 1 (by norm_num)⟩
  · intro e he
    simp [plant, emissionsOf] at he
    rcases he with rfl | rfl | rfl <;> refine ⟨by simp, fun x hx => ?_⟩ <;>
      (rw [List.mem_singleton] at hx; subst hx; exact ⟨rfl, rfl, rfl, rfl⟩)
  · exact ⟨⟨rfl, rfl, rfl, rfl⟩, rfl⟩

/-- Non-vacuity of the asset theorem. -/
example : ∃ a rs, asset day [plant 1, plant (1/2)] = .ok a ∧ [plant 1, plant (1/2)].mapM (installation day) = .ok rs ∧
    AddsUp day a rs :=
  C53_asset day (by simp [day]) _ (by simp) (by
    intro i hi
    simp only [List.mem_cons, List.not_mem_nil, or_false] at hi
    rcases hi with rfl | rfl <;> exact plant_healthy _)

end Verif.C53
