import Verif.Model.Campbell
import Mathlib.Analysis.SpecialFunctions.Pow.NNReal
import Mathlib.Analysis.MeanInequalities
import Mathlib.Algebra.Order.Ring.Pow

/-!
# C82 Polytropic head and outlet pressure

The gas is described by plain inequalities (`Gas`); the conclusions compare pressures, heads and energies.
-/

namespace Verif.C82
open Verif.Campbell

/-- A physical gas and a physical machine: heat capacity ratio above one, everything else positive. -/
structure Gas (kappa eff z molarMass temperature : ℝ) : Prop where
  kappa : 1 < kappa
  eff : 0 < eff
  z : 0 < z
  molarMass : 0 < molarMass
  temperature : 0 < temperature

/-- The largest expansion head the gas can give: below its negative no outlet pressure exists. -/
noncomputable def expansionLimit (kappa eff z molarMass temperature : ℝ) : ℝ :=
  kappa * eff / (kappa - 1) * (z * 8.314472 * temperature / molarMass)

/-! ## Lemmas -/

section
variable {kappa eff z molarMass temperature : ℝ} (g : Gas kappa eff z molarMass temperature)
include g

theorem exponent_pos : 0 < exponent kappa eff := by
  have := g.kappa; have := g.eff
  exact div_pos (by linarith) (mul_pos (by linarith) g.eff)

theorem limit_pos : 0 < expansionLimit kappa eff z molarMass temperature := by
  have := g.kappa; have := g.eff; have := g.z; have := g.molarMass; have := g.temperature
  have h1 : 0 < kappa - 1 := by linarith
  have h2 : 0 < kappa := by linarith
  unfold expansionLimit
  positivity

theorem head_eq (ratio : ℝ) : head eff kappa z molarMass ratio temperature =
    expansionLimit kappa eff z molarMass temperature * (ratio ^ exponent kappa eff - 1) := by
  have := g.kappa; have := g.eff; have := g.molarMass
  have h1 : kappa - 1 ≠ 0 := by linarith
  have h2 : kappa ≠ 0 := by linarith
  have h3 : eff ≠ 0 := by linarith
  have h4 : molarMass ≠ 0 := by linarith
  unfold head headOf expansionLimit gasConstant
  congr 1
  unfold exponent
  field_simp

theorem outlet_eq (h pressure : ℝ) : outletPressure kappa eff h molarMass z temperature pressure =
    pressure * (1 + h / expansionLimit kappa eff z molarMass temperature) ^ (1 / exponent kappa eff) := by
  have := g.kappa; have := g.eff; have := g.molarMass; have := g.z; have := g.temperature
  have h1 : kappa - 1 ≠ 0 := by linarith
  have h2 : kappa ≠ 0 := by linarith
  have h3 : eff ≠ 0 := by linarith
  have h4 : molarMass ≠ 0 := by linarith
  have h5 : z ≠ 0 := by linarith
  have h6 : temperature ≠ 0 := by linarith
  unfold outletPressure
  simp only
  congr 3
  unfold exponent expansionLimit gasConstant
  field_simp

theorem base_pos {h : ℝ} (hh : -expansionLimit kappa eff z molarMass temperature < h) :
    0 < 1 + h / expansionLimit kappa eff z molarMass temperature := by
  have hl := limit_pos g
  have : -1 < h / expansionLimit kappa eff z molarMass temperature := by
    rw [lt_div_iff₀ hl]; linarith
  linarith

/-! ## Theorems -/

/-- **The two formulas are inverse (1).** The outlet pressure computed from the head that a pressure ratio needs is the
inlet pressure times that ratio. -/
theorem C82_pressure_of_head (ratio pressure : ℝ) (hr : 0 < ratio) :
    outletPressure kappa eff (head eff kappa z molarMass ratio temperature) molarMass z temperature pressure =
      pressure * ratio := by
  have hl := limit_pos g
  have he := exponent_pos g
  rw [outlet_eq g, head_eq g, mul_div_cancel_left₀ _ hl.ne']
  have : 1 + (ratio ^ exponent kappa eff - 1) = ratio ^ exponent kappa eff := by ring
  rw [this, ← Real.rpow_mul hr.le, mul_one_div_cancel he.ne', Real.rpow_one]

/-- **The two formulas are inverse (2).** The head needed for the outlet pressure that a head gives is that head, for
every head above the expansion limit. -/
theorem C82_head_of_pressure (h pressure : ℝ) (hp : 0 < pressure)
    (hh : -expansionLimit kappa eff z molarMass temperature < h) :
    head eff kappa z molarMass (outletPressure kappa eff h molarMass z temperature pressure / pressure) temperature
      = h := by
  have hl := limit_pos g
  have he := exponent_pos g
  have hb := base_pos g hh
  rw [outlet_eq g, head_eq g, mul_div_cancel_left₀ _ hp.ne', ← Real.rpow_mul hb.le, one_div_mul_cancel he.ne',
    Real.rpow_one]
  field_simp
  ring

/-- **Head and ratio.** No head is needed for no pressure increase, and a higher ratio always needs a higher head. -/
theorem C82_head_order (r s : ℝ) (hr : 0 < r) (hs : 0 < s) :
    head eff kappa z molarMass 1 temperature = 0 ∧
    (head eff kappa z molarMass r temperature < head eff kappa z molarMass s temperature ↔ r < s) ∧
    (0 < head eff kappa z molarMass r temperature ↔ 1 < r) ∧
    -expansionLimit kappa eff z molarMass temperature < head eff kappa z molarMass r temperature := by
  have hl := limit_pos g
  have he := exponent_pos g
  have key : ∀ a b : ℝ, 0 < a → 0 < b →
      (head eff kappa z molarMass a temperature < head eff kappa z molarMass b temperature ↔ a < b) := by
    intro a b ha hb
    rw [head_eq g, head_eq g, mul_lt_mul_iff_right₀ hl, sub_lt_sub_iff_right]
    exact Real.rpow_lt_rpow_iff ha.le hb.le he
  have one : head eff kappa z molarMass 1 temperature = 0 := by
    rw [head_eq g, Real.one_rpow]; ring
  refine ⟨one, key r s hr hs, ?_, ?_⟩
  · have := key 1 r one_pos hr
    rwa [one] at this
  · rw [head_eq g]
    have := Real.rpow_pos_of_pos hr (exponent kappa eff)
    nlinarith

/-- **Pressure and head.** Every head above the expansion limit gives a positive outlet pressure; no head leaves the
pressure as it is; a higher head always gives a higher pressure. -/
theorem C82_pressure_order (pressure h k : ℝ) (hp : 0 < pressure)
    (hh : -expansionLimit kappa eff z molarMass temperature < h)
    (hk : -expansionLimit kappa eff z molarMass temperature < k) :
    0 < outletPressure kappa eff h molarMass z temperature pressure ∧
    outletPressure kappa eff 0 molarMass z temperature pressure = pressure ∧
    (outletPressure kappa eff h molarMass z temperature pressure <
      outletPressure kappa eff k molarMass z temperature pressure ↔ h < k) := by
  have hl := limit_pos g
  have he := exponent_pos g
  have hb := base_pos g hh
  have hc := base_pos g hk
  refine ⟨?_, ?_, ?_⟩
  · rw [outlet_eq g]
    exact mul_pos hp (Real.rpow_pos_of_pos hb _)
  · rw [outlet_eq g]; simp
  · rw [outlet_eq g, outlet_eq g, mul_lt_mul_iff_right₀ hp,
      Real.rpow_lt_rpow_iff hb.le hc.le (one_div_pos.mpr he), add_lt_add_iff_left, div_lt_div_iff_of_pos_right hl]

/-- **Hotter, lighter, less compressible.** For a given ratio the head is proportional to compressibility and
temperature and inversely proportional to the molar mass. -/
theorem C82_scaling (ratio a b c : ℝ) (hc : 0 < c) :
    head eff kappa (a * z) (c * molarMass) ratio (b * temperature) =
      a * b / c * head eff kappa z molarMass ratio temperature := by
  have := g.molarMass
  have h4 : molarMass ≠ 0 := by linarith
  have he := (exponent_pos g).ne'
  unfold head headOf
  field_simp

/-- **Efficiency.** For a compression, a more efficient machine spends less energy per kilogram (head divided by
efficiency). -/
theorem C82_efficiency (ratio better : ℝ) (hr : 1 < ratio) (hb : eff < better) :
    head better kappa z molarMass ratio temperature / better <
      head eff kappa z molarMass ratio temperature / eff := by
  have hk := g.kappa; have hf := g.eff
  have g' : Gas kappa better z molarMass temperature := ⟨g.kappa, by linarith, g.z, g.molarMass, g.temperature⟩
  have hbp := g'.eff
  rw [head_eq g, head_eq g']
  have hexp : exponent kappa better < exponent kappa eff := by
    unfold exponent
    apply div_lt_div_of_pos_left (by linarith) (by nlinarith) (by nlinarith)
  have hpow : ratio ^ exponent kappa better < ratio ^ exponent kappa eff := Real.rpow_lt_rpow_of_exponent_lt hr hexp
  have hw : 0 < kappa / (kappa - 1) * (z * 8.314472 * temperature / molarMass) := by
    have := g.z; have := g.molarMass; have := g.temperature
    have h1 : 0 < kappa - 1 := by linarith
    have h2 : 0 < kappa := by linarith
    positivity
  have e1 : ∀ x y : ℝ, 0 < x → expansionLimit kappa x z molarMass temperature * y / x =
      kappa / (kappa - 1) * (z * 8.314472 * temperature / molarMass) * y := by
    intro x y hx
    unfold expansionLimit
    field_simp
  rw [e1 _ _ hbp, e1 _ _ hf]
  exact mul_lt_mul_of_pos_left (by linarith) hw

omit g in
/-- **Stages multiply to the whole.** `n` equal stage ratios multiply to the whole pressure ratio, and each of them
lies between one and the whole ratio, whichever way the pressure goes. -/
theorem C82_stage_ratio (suction discharge : ℝ) (n : ℕ) (hn : 1 ≤ n) (hs : 0 < suction) (hd : 0 < discharge) :
    suction * ratioPerStage suction discharge n ^ n = discharge ∧ 0 < ratioPerStage suction discharge n ∧
    (1 < ratioPerStage suction discharge n ↔ suction < discharge) ∧
    (suction ≤ discharge → ratioPerStage suction discharge n ≤ discharge / suction) := by
  have hq : 0 < discharge / suction := div_pos hd hs
  have hn' : (n : ℝ) ≠ 0 := by positivity
  have hnp : (0 : ℝ) < n := by positivity
  unfold ratioPerStage
  refine ⟨?_, Real.rpow_pos_of_pos hq _, ?_, ?_⟩
  · rw [← Real.rpow_natCast, ← Real.rpow_mul hq.le, one_div_mul_cancel hn', Real.rpow_one]
    field_simp
  · rw [Real.one_lt_rpow_iff_of_pos hq]
    constructor
    · rintro (⟨h, _⟩ | ⟨_, h⟩)
      · rwa [one_lt_div hs] at h
      · exact absurd (one_div_pos.mpr hnp) (not_lt.mpr h.le)
    · intro h
      exact .inl ⟨(one_lt_div hs).mpr h, one_div_pos.mpr hnp⟩
  · intro h
    have h1 : 1 ≤ discharge / suction := (one_le_div hs).mpr h
    conv_rhs => rw [← Real.rpow_one (discharge / suction)]
    apply Real.rpow_le_rpow_of_exponent_le h1
    rw [div_le_one hnp]
    exact_mod_cast hn

/-- **Equal ratios are best.** However the whole ratio is split over stages that all start from the same gas
(intercooled to the same temperature), the heads sum to at least the heads of equal stages. -/
theorem C82_equal_split (ratios : List ℝ) (hne : ratios ≠ []) (hpos : ∀ r ∈ ratios, 0 < r) :
    ratios.length * head eff kappa z molarMass (ratios.prod ^ (1 / (ratios.length : ℝ))) temperature ≤
      (ratios.map fun r => head eff kappa z molarMass r temperature).sum := by
  have hl := limit_pos g
  have hlen : 0 < ratios.length := List.length_pos_iff.mpr hne
  have hn : (0 : ℝ) < ratios.length := by exact_mod_cast hlen
  have hprod : 0 < ratios.prod := List.prod_pos (fun a ha => hpos a ha)
  -- arithmetic and geometric mean of the powers
  have am : ratios.prod ^ (exponent kappa eff / (ratios.length : ℝ)) ≤
      (ratios.map fun r => r ^ exponent kappa eff).sum / ratios.length := by
    have hz : ∀ i ∈ (Finset.univ : Finset (Fin ratios.length)), 0 ≤ (ratios.get i) ^ exponent kappa eff :=
      fun i _ => (Real.rpow_pos_of_pos (hpos _ (List.get_mem _ _)) _).le
    have h := Real.geom_mean_le_arith_mean_weighted Finset.univ (fun _ => 1 / (ratios.length : ℝ))
      (fun i : Fin ratios.length => (ratios.get i) ^ exponent kappa eff) (fun _ _ => by positivity)
      (by simp; field_simp) hz
    have e1 : ∏ i : Fin ratios.length, ((ratios.get i) ^ exponent kappa eff) ^ (1 / (ratios.length : ℝ)) =
        ratios.prod ^ (exponent kappa eff / (ratios.length : ℝ)) := by
      have : ∀ i ∈ (Finset.univ : Finset (Fin ratios.length)),
          ((ratios.get i) ^ exponent kappa eff) ^ (1 / (ratios.length : ℝ)) =
            (ratios.get i) ^ (exponent kappa eff / (ratios.length : ℝ)) := by
        intro i _
        rw [← Real.rpow_mul (hpos _ (List.get_mem _ _)).le, mul_one_div]
      rw [Finset.prod_congr rfl this,
        Real.finsetProd_rpow _ _ (fun i _ => (hpos _ (List.get_mem _ _)).le)]
      congr 1
      exact Fin.prod_univ_getElem ratios
    have e2 : ∑ i : Fin ratios.length, 1 / (ratios.length : ℝ) * (ratios.get i) ^ exponent kappa eff =
        (ratios.map fun r => r ^ exponent kappa eff).sum / ratios.length := by
      rw [← Finset.mul_sum, one_div_mul_eq_div]
      congr 1
      exact Fin.sum_univ_fun_getElem ratios (fun r => r ^ exponent kappa eff)
    rwa [e1, e2] at h
  have lhs : head eff kappa z molarMass (ratios.prod ^ (1 / (ratios.length : ℝ))) temperature =
      expansionLimit kappa eff z molarMass temperature *
        (ratios.prod ^ (exponent kappa eff / (ratios.length : ℝ)) - 1) := by
    rw [head_eq g, ← Real.rpow_mul hprod.le, one_div_mul_eq_div]
  have rhs : ∀ l : List ℝ, (l.map fun r => head eff kappa z molarMass r temperature).sum =
      expansionLimit kappa eff z molarMass temperature *
        ((l.map fun r => r ^ exponent kappa eff).sum - l.length) := by
    intro l
    induction l with
    | nil => simp
    | cons a l ih =>
      rw [List.map_cons, List.sum_cons, ih, head_eq g, List.map_cons, List.sum_cons, List.length_cons]
      push_cast
      ring
  rw [lhs, rhs, mul_left_comm]
  apply mul_le_mul_of_nonneg_left _ hl.le
  rw [le_div_iff₀ hn] at am
  nlinarith

/-- **More stages, less head.** Splitting a ratio over `n` equal intercooled stages never needs more head in total
than one stage. -/
theorem C82_more_stages (suction discharge : ℝ) (n : ℕ) (hn : 1 ≤ n) (hs : 0 < suction) (hd : 0 < discharge) :
    n * head eff kappa z molarMass (ratioPerStage suction discharge n) temperature ≤
      head eff kappa z molarMass (ratioPerStage suction discharge 1) temperature := by
  have hl := limit_pos g
  have hq : 0 < discharge / suction := div_pos hd hs
  have hnp : (0 : ℝ) < n := by positivity
  rw [head_eq g, head_eq g, mul_left_comm]
  apply mul_le_mul_of_nonneg_left _ hl.le
  unfold ratioPerStage
  rw [← Real.rpow_mul hq.le, ← Real.rpow_mul hq.le]
  have hx : 0 < (discharge / suction) ^ (1 / (n : ℝ) * exponent kappa eff) := Real.rpow_pos_of_pos hq _
  have e : (discharge / suction) ^ (1 / ((1 : ℕ) : ℝ) * exponent kappa eff) =
      ((discharge / suction) ^ (1 / (n : ℝ) * exponent kappa eff)) ^ n := by
    rw [← Real.rpow_natCast, ← Real.rpow_mul hq.le]
    congr 1
    push_cast
    field_simp
  rw [e]
  have := one_add_mul_le_pow (show -2 ≤ (discharge / suction) ^ (1 / (n : ℝ) * exponent kappa eff) - 1 by linarith) n
  have e2 : 1 + ((discharge / suction) ^ (1 / (n : ℝ) * exponent kappa eff) - 1) =
      (discharge / suction) ^ (1 / (n : ℝ) * exponent kappa eff) := by ring
  rw [e2] at this
  linarith

omit g in
/-- **Power.** The power in megawatt is the energy per kilogram times the kilograms per second, in millions; it is additive in both and has the sign of the
enthalpy change when something flows. -/
theorem C82_power (d e m n : ℝ) :
    powerMegawatt d m * 1000000 * 3600 = d * m ∧
    powerMegawatt (d + e) m = powerMegawatt d m + powerMegawatt e m ∧
    powerMegawatt d (m + n) = powerMegawatt d m + powerMegawatt d n ∧
    (0 < m → (0 < powerMegawatt d m ↔ 0 < d)) := by
  unfold powerMegawatt
  refine ⟨by ring, by ring, by ring, ?_⟩
  intro hm
  constructor
  · intro h
    by_contra hd
    have : d * m ≤ 0 := mul_nonpos_of_nonpos_of_nonneg (not_lt.mp hd) hm.le
    linarith
  · intro hd
    positivity

end

/-! ## Examples -/

/-- κ = 2 at full efficiency: the exponent is one half. -/
example : exponent 2 1 = 1 / 2 := by norm_num [exponent]

/-- A ratio of four needs a head of 2·z·R·T/M, and this head gives back the ratio of four. -/
example : head 1 2 1 (8.314472 / 100) 4 300 = 60000 ∧
    outletPressure 2 1 60000 (8.314472 / 100) 1 300 10 = 40 := by
  have e4 : (4 : ℝ) ^ (1 / 2 : ℝ) = 2 := by
    rw [show (4 : ℝ) = 2 ^ (2 : ℝ) by norm_num, ← Real.rpow_mul (by norm_num)]; norm_num
  constructor
  · unfold head headOf
    rw [show exponent 2 1 = 1 / 2 by norm_num [exponent], e4]
    norm_num [gasConstant]
  · unfold outletPressure
    rw [show exponent 2 1 = 1 / 2 by norm_num [exponent]]
    norm_num [gasConstant]

/-- Sixteen-fold compression in two stages: ratio four each. -/
example : ratioPerStage 5 80 2 = 4 := by
  unfold ratioPerStage
  rw [show (80 / 5 : ℝ) = 4 ^ (2 : ℝ) by norm_num, ← Real.rpow_mul (by norm_num)]
  norm_num

end Verif.C82
