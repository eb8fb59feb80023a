import Verif.Model.Units
import Mathlib.Tactic.Ring
import Mathlib.Tactic.FieldSimp
import Mathlib.Tactic.NormNum
import Mathlib.Tactic.Linarith

/-! # C14 — EUnit conversions are reversible and consistent -/

namespace Verif.C14
open Verif.Units

/-- **C14, round trip.** If both directions exist, converting there and back is the identity. -/
theorem C14_round_trip (u v : EUnit) (f g : ℚ → ℚ) (hf : u.to v = .ok f) (hg : v.to u = .ok g) (x : ℚ) :
    g (f x) = x := by
  unfold EUnit.to at hf hg
  by_cases h : u = v
  · subst h
    simp only [if_true, Except.ok.injEq] at hf hg
    subst hf hg
    rfl
  · rw [if_neg h] at hf
    rw [if_neg (Ne.symm h)] at hg
    unfold registry at hf hg
    split at hf
    all_goals (try (simp at hf; done))
    all_goals
      rename_i heq
      split at heq
      all_goals (try (simp at heq; done))
      all_goals
        simp only [Option.some.injEq] at heq
        subst heq
        simp only [Except.ok.injEq] at hf hg
        subst hf
    all_goals (try (simp at hg; done))
    all_goals
      subst hg
      simp only [earthGravity]
      ring

/-- **C14, same unit.** -/
theorem C14_same_unit (u : EUnit) : ∃ f, u.to u = .ok f ∧ ∀ x, f x = x := by
  refine ⟨fun a => a, ?_, fun _ => rfl⟩
  unfold EUnit.to; rw [if_pos rfl]

/-- **C14, unsupported conversions.** Between different units either the registered conversion is used or
NotImplementedError is raised. -/
theorem C14_unsupported (u v : EUnit) (h : u ≠ v) :
    (registry u v = none ↔ u.to v = .error .notImplemented) := by
  unfold EUnit.to; rw [if_neg h]
  cases registry u v <;> simp

/-- Physical dimensions (specification). -/
inductive Dim where
  | massRate | mass | volume | energy | temperature | pressure | ratio | specificEnergy | massPerVolume
  deriving DecidableEq

/-- Specification: meaning of a unit in a common base per dimension: `base = scale * x + offset`.
(t/d in kg/d, t in kg, litres and BOE in Sm3, MWd and GWh in MWh, °C in K, bar and kPa in Pa, % in
fractions, kJ/kg and metres of liquid column in J/kg, kg/BOE in kg/Sm3; 1 Sm3 = 6.29 BOE, g = 9.81.) -/
def meaning : EUnit → Option (Dim × ℚ × ℚ)
  | .KILO_PER_DAY => some (.massRate, 1, 0)
  | .TONS_PER_DAY => some (.massRate, 1000, 0)
  | .KILO => some (.mass, 1, 0)
  | .TONS => some (.mass, 1000, 0)
  | .STANDARD_CUBIC_METER => some (.volume, 1, 0)
  | .LITRES => some (.volume, 1 / 1000, 0)
  | .BOE => some (.volume, 100 / 629, 0)
  | .MEGA_WATT_DAYS => some (.energy, 24, 0)
  | .GIGA_WATT_HOURS => some (.energy, 1000, 0)
  | .KELVIN => some (.temperature, 1, 0)
  | .CELSIUS => some (.temperature, 1, 27315 / 100)
  | .PASCAL => some (.pressure, 1, 0)
  | .KILO_PASCAL => some (.pressure, 1000, 0)
  | .BARA => some (.pressure, 100000, 0)
  | .FRACTION => some (.ratio, 1, 0)
  | .PERCENTAGE => some (.ratio, 1 / 100, 0)
  | .POLYTROPIC_HEAD_JOULE_PER_KG => some (.specificEnergy, 1, 0)
  | .POLYTROPIC_HEAD_KILO_JOULE_PER_KG => some (.specificEnergy, 1000, 0)
  | .POLYTROPIC_HEAD_METER_LIQUID_COLUMN => some (.specificEnergy, 981 / 100, 0)
  | .KG_SM3 => some (.massPerVolume, 1, 0)
  | .KG_BOE => some (.massPerVolume, 629 / 100, 0)
  | _ => none

/-- **C14, physical correctness.** Every supported conversion between different units keeps the dimension
and the physical quantity. -/
theorem C14_physically_correct (u v : EUnit) (huv : u ≠ v) (f : ℚ → ℚ) (hf : u.to v = .ok f) :
    ∃ d su ou sv ov, meaning u = some (d, su, ou) ∧ meaning v = some (d, sv, ov) ∧
      ∀ x, sv * f x + ov = su * x + ou := by
  unfold EUnit.to at hf
  rw [if_neg huv] at hf
  revert hf
  cases u <;> cases v <;> (try (intro hf; simp [registry] at hf; done)) <;>
    (intro hf
     simp only [registry, Except.ok.injEq] at hf
     subst hf
     refine ⟨_, _, _, _, _, rfl, rfl, ?_⟩
     intro x
     simp only [earthGravity]
     ring)

theorem meaning_scale_pos (u : EUnit) (d : Dim) (sc o : ℚ) (h : meaning u = some (d, sc, o)) : 0 < sc := by
  unfold meaning at h
  split at h
  all_goals (first
    | (simp only [Option.some.injEq, Prod.mk.injEq] at h; obtain ⟨_, rfl, _⟩ := h; norm_num; done)
    | simp at h)

/-- **C14, consistency over intermediate units.** Whenever u→v, v→w and u→w are all supported, the
conversions compose. -/
theorem C14_compose (u v w : EUnit) (f g k : ℚ → ℚ) (hf : u.to v = .ok f) (hg : v.to w = .ok g)
    (hk : u.to w = .ok k) (x : ℚ) : g (f x) = k x := by
  by_cases huw : u = w
  · subst huw
    rw [C14_round_trip u v f g hf hg x]
    unfold EUnit.to at hk
    rw [if_pos rfl] at hk
    simp only [Except.ok.injEq] at hk
    subst hk; rfl
  by_cases huv : u = v
  · subst huv
    rw [hg] at hk
    simp only [Except.ok.injEq] at hk
    subst hk
    unfold EUnit.to at hf
    rw [if_pos rfl] at hf
    simp only [Except.ok.injEq] at hf
    subst hf; rfl
  by_cases hvw : v = w
  · subst hvw
    rw [hf] at hk
    simp only [Except.ok.injEq] at hk
    subst hk
    unfold EUnit.to at hg
    rw [if_pos rfl] at hg
    simp only [Except.ok.injEq] at hg
    subst hg; rfl
  obtain ⟨d1, su, ou, sv, ov, hu, hv, h1⟩ := C14_physically_correct u v huv f hf
  obtain ⟨d2, sv', ov', sw, ow, hv', hw, h2⟩ := C14_physically_correct v w hvw g hg
  obtain ⟨d3, su', ou', sw', ow', hu', hw', h3⟩ := C14_physically_correct u w huw k hk
  rw [hv] at hv'
  rw [hu] at hu'
  rw [hw] at hw'
  simp only [Option.some.injEq, Prod.mk.injEq] at hu' hv' hw'
  obtain ⟨_, rfl, rfl⟩ := hu'
  obtain ⟨_, rfl, rfl⟩ := hv'
  obtain ⟨_, rfl, rfl⟩ := hw'
  have hsw := meaning_scale_pos w _ _ _ hw
  have e : sw * g (f x) = sw * k x := by
    have := h1 x; have := h2 (f x); have := h3 x
    linarith
  exact mul_left_cancel₀ (ne_of_gt hsw) e

/-- **C14, the conversions preserve order** (a larger quantity stays larger after conversion). -/
theorem C14_monotone (u v : EUnit) (f : ℚ → ℚ) (hf : u.to v = .ok f) (x y : ℚ) (h : x < y) : f x < f y := by
  unfold EUnit.to at hf
  split at hf
  · simp only [Except.ok.injEq] at hf; subst hf; exact h
  · unfold registry at hf
    split at hf
    all_goals (try (simp at hf; done))
    all_goals
      rename_i heq
      split at heq
      all_goals (try (simp at heq; done))
      all_goals
        simp only [Option.some.injEq] at heq
        subst heq
        simp only [Except.ok.injEq] at hf
        subst hf
        simp only [earthGravity]
        linarith

/-- **C14, volume and rate units are inverse.** -/
theorem C14_volume_rate_inverse (u v : EUnit) : u.volumeToRate = .ok v ↔ v.rateToVolume = .ok u := by
  cases u <;> cases v <;> simp [EUnit.volumeToRate, EUnit.rateToVolume]

/-- **C14, lists.** Converting a list converts each value and keeps the number of values; round trip on lists. -/
theorem C14_list_round_trip (u v : EUnit) (f g : ℚ → ℚ) (hf : u.to v = .ok f) (hg : v.to u = .ok g)
    (xs : List ℚ) : convertList g (convertList f xs) = xs := by
  unfold convertList
  rw [List.map_map]
  have : (g ∘ f) = id := by
    funext x; exact C14_round_trip u v f g hf hg x
  rw [this, List.map_id]

/-- Non-vacuity: kJ/kg to metre liquid column and back; MWd→GWh has no inverse in the table. -/
example : (∃ f g, EUnit.to .POLYTROPIC_HEAD_KILO_JOULE_PER_KG .POLYTROPIC_HEAD_METER_LIQUID_COLUMN = .ok f ∧
    EUnit.to .POLYTROPIC_HEAD_METER_LIQUID_COLUMN .POLYTROPIC_HEAD_KILO_JOULE_PER_KG = .ok g ∧ f (981/1000) = 100) ∧
    EUnit.to .GIGA_WATT_HOURS .MEGA_WATT_DAYS = .error .notImplemented := by
  refine ⟨⟨_, _, rfl, rfl, ?_⟩, rfl⟩
  norm_num [earthGravity]

end Verif.C14
