import Mathlib.Tactic.NormNum
import Verif.Lemmas.Table
import Verif.Model.Turbine

/-!
# C29: turbine fuel use and overload
-/

namespace Verif.C29
open Verif.Time Verif.Rates Verif.Table Verif.TableLemmas Verif.TurbineModel

/-! ## Specification

The calibrated load of a turbine is `(load + constant) / factor` for a positive load. The turbine can deliver a load
if the calibrated load is not above the largest load of its table. -/

/-- Calibrated load. -/
def calibrated (factor constant load : ℚ) : ℚ := if 0 < load then (load + constant) / factor else load

/-- The calibrated load is above every load of the table. -/
def Overloaded (loads : List ℚ) (factor constant load : ℚ) : Prop :=
  ∀ l ∈ loads, l < calibrated factor constant load

/-- Heating value in use: that of the fuel when given, otherwise that of the turbine. -/
def heating (own fuel : ℚ) : ℚ := if 0 < fuel then fuel else own

/-! ## Helper lemmas -/

theorem make_facts {loads : List ℚ} {lhv : ℚ} {effs : List ℚ} {f c : ℚ} {t : Turbine}
    (h : Turbine.make loads lhv effs f c = .ok t) :
    ∃ m, t = ⟨loads, m, lhv, effs, f, c⟩ ∧ m ∈ loads ∧ (∀ l ∈ loads, l ≤ m) ∧ loads.length = effs.length ∧
      ∀ e ∈ effs, 0 ≤ e ∧ e ≤ 1 := by
  unfold Turbine.make at h
  cases hm : pyMax loads with
  | error e => simp [hm, Bind.bind, Except.bind] at h
  | ok m =>
    simp only [hm, Bind.bind, Except.bind, Pure.pure, Except.pure] at h
    split at h
    · simp at h
    · rename_i hl
      split at h
      · simp at h
      · rename_i hany
        simp only [Except.ok.injEq] at h
        obtain ⟨h1, h2⟩ := pyMax_spec hm
        refine ⟨m, h.symm, h1, h2, not_not.mp hl, fun e he => ?_⟩
        simp only [List.any_eq_true, not_exists, not_and] at hany
        have := hany e he
        simpa using this

theorem efficiency_spec {loads : List ℚ} {lhv : ℚ} {effs : List ℚ} {f c : ℚ} {t : Turbine}
    (h : Turbine.make loads lhv effs f c = .ok t) (x : ℚ) :
    ∃ e, t.efficiency x = .ok e ∧ 0 ≤ e ∧ e ≤ 1 ∧
      ((∀ l ∈ loads, x < l) → e = 0) ∧
      ((∃ l ∈ loads, l ≤ x) → (∃ l ∈ loads, x ≤ l) → Between (loads.zip effs) x e) := by
  obtain ⟨m, rfl, hm, -, hlen, heff⟩ := make_facts h
  have hne : loads ≠ [] := List.ne_nil_of_mem hm
  have hpos : 0 < effs.length := by rw [← hlen]; exact List.length_pos_of_ne_nil hne
  have hne' : effs ≠ [] := List.ne_nil_of_length_pos hpos
  have hz : loads.zip effs ≠ [] := List.ne_nil_of_length_pos (by simp; omega)
  unfold Turbine.efficiency
  simp only [List.getLast?_eq_some_getLast hne']
  obtain ⟨e, h1, h2⟩ := lookup_spec (loads.zip effs) 0 (effs.getLast hne') x hz
  have hfst : ∀ l ∈ loads, ∃ r ∈ loads.zip effs, r.1 = l := by
    intro l hl
    obtain ⟨i, hi, rfl⟩ := List.mem_iff_getElem.mp hl
    exact ⟨(loads.zip effs)[i]'(by simp; omega), List.getElem_mem _, by simp⟩
  have hin : ∀ r ∈ loads.zip effs, r.1 ∈ loads ∧ r.2 ∈ effs := fun r hr =>
    ⟨(List.of_mem_zip hr).1, (List.of_mem_zip hr).2⟩
  refine ⟨e, h1, ?_⟩
  rcases h2 with ⟨g1, rfl⟩ | ⟨g1, rfl⟩ | ⟨⟨r1, m1, g1⟩, ⟨r2, m2, g2⟩, g3⟩
  · refine ⟨le_refl _, by norm_num, fun _ => rfl, ?_⟩
    rintro ⟨l, hl, hx⟩
    obtain ⟨r, hr, rfl⟩ := hfst l hl
    exact absurd (g1 r hr) (not_lt.mpr hx)
  · have := heff _ (List.getLast_mem hne')
    refine ⟨this.1, this.2, ?_, ?_⟩
    · intro hall
      obtain ⟨r, hr, rfl⟩ := hfst m hm
      exact absurd (g1 r hr) (not_lt.mpr (le_of_lt (hall _ hm)))
    · rintro - ⟨l, hl, hx⟩
      obtain ⟨r, hr, rfl⟩ := hfst l hl
      exact absurd (g1 r hr) (not_lt.mpr hx)
  · obtain ⟨b1, b2⟩ := between_bounds g3 (fun r hr => heff _ (hin r hr).2)
    refine ⟨b1, b2, ?_, fun _ _ => g3⟩
    intro hall
    exact absurd (hall _ (hin r1 m1).1) (not_lt.mpr g1)

theorem evaluate_spec {loads : List ℚ} {lhv : ℚ} {effs : List ℚ} {f c : ℚ} {t : Turbine}
    (h : Turbine.make loads lhv effs f c = .ok t) (hf : f ≠ 0) (fuelLhv load : ℚ) :
    ∃ e r, t.efficiency (calibrated f c load) = .ok e ∧ t.evaluateOne fuelLhv load = .ok r ∧
      r.load = some (calibrated f c load) ∧ r.efficiency = some e ∧
      r.fuel = some (if heating lhv fuelLhv ≠ 0 ∧ e ≠ 0 then
        calibrated f c load * 86400 / heating lhv fuelLhv / e else 0) ∧
      r.exceeds = decide (t.maximumLoad < load) := by
  obtain ⟨e, he, -⟩ := efficiency_spec h (calibrated f c load)
  obtain ⟨m, rfl, -⟩ := make_facts h
  have ha : Turbine.adjusted ⟨loads, m, lhv, effs, f, c⟩ load = some (calibrated f c load) := by
    unfold Turbine.adjusted calibrated
    by_cases hp : 0 < load
    · simp [hp, Fl.div, hf]
    · simp [hp]
  refine ⟨e, ⟨some (calibrated f c load), some e, some (if heating lhv fuelLhv ≠ 0 ∧ e ≠ 0 then
        calibrated f c load * 86400 / heating lhv fuelLhv / e else 0), decide (m < load)⟩, he, ?_, rfl, rfl, rfl, rfl⟩
  unfold Turbine.evaluateOne
  simp only [ha, he, Bind.bind, Except.bind, Pure.pure, Except.pure, heating]
  congr 2

/-! ## Theorems -/

/-- A turbine without load uses no fuel. -/
theorem C29_zero_load (loads : List ℚ) (lhv : ℚ) (effs : List ℚ) (f c : ℚ) (t : Turbine)
    (h : Turbine.make loads lhv effs f c = .ok t) (hf : f ≠ 0) (fuelLhv : ℚ) :
    ∃ r, t.evaluateOne fuelLhv 0 = .ok r ∧ r.load = some 0 ∧ r.fuel = some 0 := by
  obtain ⟨e, r, -, h1, h2, -, h3, -⟩ := evaluate_spec h hf fuelLhv 0
  refine ⟨r, h1, by rw [h2]; simp [calibrated], ?_⟩
  rw [h3]
  simp [calibrated]

example : ((Turbine.make [2, 10] 38 [1/10, 3/10] (1/2) 1).bind (fun t => t.evaluateOne 0 0)).map (·.fuel)
    = .ok (some 0) := by decide +kernel

/-- Fuel use is never negative, whatever the load and the calibration, when the loads of the table and the heating
values are not negative. -/
theorem C29_nonnegative (loads : List ℚ) (lhv : ℚ) (effs : List ℚ) (f c : ℚ) (t : Turbine)
    (h : Turbine.make loads lhv effs f c = .ok t) (hf : f ≠ 0) (hl : ∀ l ∈ loads, 0 ≤ l) (hlhv : 0 ≤ lhv)
    (fuelLhv load : ℚ) :
    ∃ r x, t.evaluateOne fuelLhv load = .ok r ∧ r.fuel = some x ∧ 0 ≤ x := by
  obtain ⟨e, r, h0, h1, h2, -, h3, -⟩ := evaluate_spec h hf fuelLhv load
  obtain ⟨e', g0, g1, g2, g3, -⟩ := efficiency_spec h (calibrated f c load)
  rw [h0] at g0
  obtain rfl := Except.ok.inj g0
  refine ⟨r, _, h1, h3, ?_⟩
  split
  · rename_i hc
    have hhv : 0 ≤ heating lhv fuelLhv := by unfold heating; split <;> linarith
    have hx : 0 ≤ calibrated f c load := by
      by_contra hneg
      exact hc.2 (g3 (fun l hm => lt_of_lt_of_le (not_le.mp hneg) (hl l hm)))
    positivity
  · exact le_refl _

example : ((Turbine.make [0, 10] 38 [1/10, 3/10] 1 (-5)).bind (fun t => t.evaluateOne 0 2)).map (·.fuel)
    = .ok (some 0) := by decide +kernel

/-- Within the table the fuel burnt carries exactly the energy of the calibrated load at the efficiency of the table:
`fuel * heating value * efficiency = calibrated load * 86400`, where the efficiency lies on the table. -/
theorem C29_energy_balance (loads : List ℚ) (lhv : ℚ) (effs : List ℚ) (f c : ℚ) (t : Turbine)
    (h : Turbine.make loads lhv effs f c = .ok t) (hf : f ≠ 0) (heff : ∀ e ∈ effs, e ≠ 0) (fuelLhv load : ℚ)
    (hv : heating lhv fuelLhv ≠ 0) (hlo : ∃ l ∈ loads, l ≤ calibrated f c load)
    (hhi : ∃ l ∈ loads, calibrated f c load ≤ l) :
    ∃ r x e, t.evaluateOne fuelLhv load = .ok r ∧ r.load = some (calibrated f c load) ∧ r.fuel = some x ∧
      r.efficiency = some e ∧ Between (loads.zip effs) (calibrated f c load) e ∧ 0 < e ∧ e ≤ 1 ∧
      x * heating lhv fuelLhv * e = calibrated f c load * 86400 := by
  obtain ⟨e, r, h0, h1, h2, h2', h3, -⟩ := evaluate_spec h hf fuelLhv load
  obtain ⟨e', g0, g1, g2, -, g4⟩ := efficiency_spec h (calibrated f c load)
  rw [h0] at g0
  obtain rfl := Except.ok.inj g0
  have hb := g4 hlo hhi
  obtain ⟨-, -, -, -, -, hb01⟩ := make_facts h
  have hpos : ∀ y ∈ effs, 0 < y := fun y hy => lt_of_le_of_ne (hb01 y hy).1 (Ne.symm (heff y hy))
  have he : 0 < e := by
    rcases hb with hm | ⟨a, ha, b, hb', k1, k2, -, rfl⟩
    · exact hpos _ (List.of_mem_zip hm).2
    · have p1 := hpos _ (List.of_mem_zip ha).2
      have p2 := hpos _ (List.of_mem_zip hb').2
      have hd : 0 < b.1 - a.1 := by linarith
      have : onLine a b (calibrated f c load)
          = (a.2 * (b.1 - calibrated f c load) + b.2 * (calibrated f c load - a.1)) / (b.1 - a.1) := by
        unfold onLine; field_simp; ring
      rw [this]
      apply div_pos _ hd
      have q1 : 0 < a.2 * (b.1 - calibrated f c load) := mul_pos p1 (by linarith)
      have q2 : 0 < b.2 * (calibrated f c load - a.1) := mul_pos p2 (by linarith)
      linarith
  refine ⟨r, _, e, h1, h2, h3, h2', hb, he, g2, ?_⟩
  rw [if_pos ⟨hv, ne_of_gt he⟩]
  have := ne_of_gt he
  field_simp

example : ((Turbine.make [0, 10] 38 [1/10, 3/10] 2 4).bind (fun t => t.evaluateOne 0 6)).map (fun r => (r.load, r.efficiency, r.fuel))
    = .ok (some 5, some (1/5), some (5 * 86400 / 38 * 5)) := by decide +kernel

/-- The flag is raised exactly for loads above the largest load of the table, before calibration. -/
theorem C29_flag (loads : List ℚ) (lhv : ℚ) (effs : List ℚ) (f c : ℚ) (t : Turbine)
    (h : Turbine.make loads lhv effs f c = .ok t) (hf : f ≠ 0) (fuelLhv load : ℚ) :
    ∃ r, t.evaluateOne fuelLhv load = .ok r ∧ (r.exceeds = true ↔ ∀ l ∈ loads, l < load) := by
  obtain ⟨e, r, -, h1, -, -, -, h4⟩ := evaluate_spec h hf fuelLhv load
  obtain ⟨m, rfl, hm, hmax, -⟩ := make_facts h
  refine ⟨r, h1, ?_⟩
  rw [h4]
  simp only [decide_eq_true_eq]
  exact ⟨fun hlt l hl => lt_of_le_of_lt (hmax l hl) hlt, fun hall => hall m hm⟩

example : ((Turbine.make [10, 0] 38 [3/10, 1/10] 1 0).bind (fun t => t.evaluate 0 [10, 11])).map (·.map (·.exceeds))
    = .ok [false, true] := by decide +kernel

/-- An overload is flagged when calibration does not reduce what the turbine can deliver (`max_power` is not below
the largest load of the table). Missing: the statement without that condition, which is false. -/
theorem C29_overload_partial (loads : List ℚ) (lhv : ℚ) (effs : List ℚ) (f c : ℚ) (t : Turbine)
    (h : Turbine.make loads lhv effs f c = .ok t) (hf : 0 < f) (hcal : ∀ l ∈ loads, l ≤ t.maxPower)
    (fuelLhv load : ℚ) (hpos : 0 < load) (hover : Overloaded loads f c load) :
    ∃ r, t.evaluateOne fuelLhv load = .ok r ∧ r.exceeds = true := by
  obtain ⟨r, h1, h2⟩ := C29_flag loads lhv effs f c t h (ne_of_gt hf) fuelLhv load
  refine ⟨r, h1, h2.mpr (fun l hl => ?_)⟩
  obtain ⟨m, rfl, hm, hmax, -⟩ := make_facts h
  have ho := hover m hm
  unfold calibrated at ho
  rw [if_pos hpos, lt_div_iff₀ hf] at ho
  have := hcal l hl
  unfold Turbine.maxPower at this
  simp only at this
  linarith

example : ∃ t, Turbine.make [0, 10] 38 [1/10, 3/10] 2 (-5) = .ok t ∧ (∀ l ∈ [(0:ℚ), 10], l ≤ t.maxPower) ∧
    Overloaded [0, 10] 2 (-5) 26 := by
  refine ⟨⟨[0, 10], 10, 38, [1/10, 3/10], 2, -5⟩, by decide +kernel, by decide +kernel, ?_⟩
  unfold Overloaded calibrated
  decide +kernel

/-- An overload can go unnoticed: with an adjustment factor of one half a load of 6 needs a calibrated load of 12 from
a turbine whose table ends at 10, and is reported as not exceeding the maximum. -/
theorem C29_overload_missed :
    ∃ t r, Turbine.make [0, 10] 38 [1/10, 3/10] (1/2) 0 = .ok t ∧ Overloaded [0, 10] (1/2) 0 6 ∧ t.maxPower = 5 ∧
      t.evaluateOne 0 6 = .ok r ∧ r.load = some 12 ∧ r.exceeds = false := by
  refine ⟨⟨[0, 10], 10, 38, [1/10, 3/10], 1/2, 0⟩, ⟨some 12, some (3/10), some (12 * 86400 / 38 / (3/10)), false⟩,
    by decide +kernel, ?_, by decide +kernel, by decide +kernel, rfl, rfl⟩
  unfold Overloaded calibrated
  decide +kernel

/-- A load the turbine can deliver can be flagged: with a factor of two a load of 15 is a calibrated load of 7.5. -/
theorem C29_false_alarm :
    ((Turbine.make [0, 10] 38 [1/10, 3/10] 2 0).bind (fun t => t.evaluateOne 0 15)).map
      (fun r => (r.load, r.exceeds)) = .ok (some (15/2), true) ∧ ¬ Overloaded [0, 10] 2 0 15 := by
  refine ⟨by decide +kernel, ?_⟩
  unfold Overloaded calibrated; decide +kernel

/-- A load below the first row of the table is served without any fuel. -/
theorem C29_below_table (loads : List ℚ) (lhv : ℚ) (effs : List ℚ) (f c : ℚ) (t : Turbine)
    (h : Turbine.make loads lhv effs f c = .ok t) (hf : f ≠ 0) (fuelLhv load : ℚ)
    (hlow : ∀ l ∈ loads, calibrated f c load < l) :
    ∃ r, t.evaluateOne fuelLhv load = .ok r ∧ r.efficiency = some 0 ∧ r.fuel = some 0 := by
  obtain ⟨e, r, h0, h1, -, h2, h3, -⟩ := evaluate_spec h hf fuelLhv load
  obtain ⟨e', g0, -, -, g3, -⟩ := efficiency_spec h (calibrated f c load)
  rw [h0] at g0
  obtain rfl := Except.ok.inj g0
  have := g3 hlow
  subst this
  exact ⟨r, h1, h2, by rw [h3]; simp⟩

example : ((Turbine.make [2, 10] 38 [1/10, 3/10] 1 0).bind (fun t => t.evaluateOne 0 1)).map (·.fuel)
    = .ok (some 0) := by decide +kernel

/-- A whole series is evaluated load by load. -/
theorem C29_elementwise (t : Turbine) (fuelLhv : ℚ) (loads : List ℚ) (rs : List Result)
    (h : t.evaluate fuelLhv loads = .ok rs) :
    rs.length = loads.length ∧ ∀ (i : Nat) (h1 : i < loads.length) (h2 : i < rs.length),
      t.evaluateOne fuelLhv loads[i] = .ok rs[i] := by
  unfold Turbine.evaluate at h
  induction loads generalizing rs with
  | nil => simp [Pure.pure, Except.pure] at h; subst h; simp
  | cons a loads ih =>
    rw [List.mapM_cons] at h
    simp only [Bind.bind, Except.bind, Pure.pure, Except.pure] at h
    cases h1 : t.evaluateOne fuelLhv a with
    | error e => rw [h1] at h; simp at h
    | ok r =>
      rw [h1] at h
      simp only at h
      cases h2 : loads.mapM (t.evaluateOne fuelLhv) with
      | error e => rw [h2] at h; simp at h
      | ok rs' =>
        rw [h2] at h
        simp only [Except.ok.injEq] at h
        subst h
        obtain ⟨g1, g2⟩ := ih rs' h2
        refine ⟨by simp [g1], fun i hi hi' => ?_⟩
        cases i with
        | zero => simpa using h1
        | succ i => simpa using g2 i (by simpa using hi) (by simpa using hi')

end Verif.C29
