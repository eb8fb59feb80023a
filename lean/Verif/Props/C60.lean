import Mathlib.Tactic.Linarith
import Mathlib.Tactic.Ring
import Mathlib.Tactic.FieldSimp
import Mathlib.Algebra.Order.Field.Basic
import Verif.Props.C40

/-!
# C60: scrubbing, cooling and direct mixing

A liquid remover keeps exactly the gas: the molar rate that leaves is the vapour part of the molar rate that enters, so
mass never increases and a compressor behind it never meets liquid. A temperature setter changes the temperature only.
A direct mixer and a direct splitter with the same rate undo each other.
-/

namespace Verif.C60
open Verif.Process Verif.C40

/-! ## Specification -/

/-- What is assumed of the separation: pressure and temperature are kept, the result is pure vapour with a positive
molar mass. -/
structure Separates (svc : Service) : Prop where
  keeps : ∀ m p m' p', svc.removeLiquid m p = .ok (m', p') → p'.pressure = p.pressure ∧ p'.temperature = p.temperature
  vapor : ∀ m p m' p', svc.removeLiquid m p = .ok (m', p') → p'.vapor = 1
  molar : ∀ m p m' p', svc.removeLiquid m p = .ok (m', p') → 0 < p'.molarMass

/-- Molar rate of a stream. -/
def moles (s : Stream) : ℚ := s.mass / s.props.molarMass

theorem make_ok {m : FluidModel} {p : Props} {mass : ℚ} {o : Stream} (h : Stream.make m p mass = .ok o) :
    0 ≤ mass ∧ o = ⟨m, p, mass⟩ := by
  unfold Stream.make at h
  split at h
  · cases h
  · cases h; exact ⟨not_lt.mp ‹_›, rfl⟩

theorem make_of {m : FluidModel} {p : Props} {mass : ℚ} (h : 0 ≤ mass) : Stream.make m p mass = .ok ⟨m, p, mass⟩ := by
  unfold Stream.make; rw [if_neg (not_lt.mpr h)]

theorem pureVapor_lt_one : pureVapor < 1 := by unfold pureVapor; norm_num

/-! ## Liquid remover -/

/-- **Liquid remover**, wet stream: the gas part of the moles leaves, as pure vapour at the same pressure and
temperature. -/
theorem C60_wet (svc : Service) (hs : Separates svc) (s o : Stream) (hm : 0 < s.props.molarMass)
    (hw : s.props.vapor < 9999 / 10000) (h : removeLiquid svc s = .ok o) :
    moles o = s.props.vapor * moles s ∧ o.props.vapor = 1 ∧ o.props.pressure = s.props.pressure ∧
    o.props.temperature = s.props.temperature ∧
    (0 ≤ s.mass → s.props.vapor * o.props.molarMass ≤ s.props.molarMass → o.mass ≤ s.mass) := by
  unfold removeLiquid at h
  rw [if_pos (show s.props.vapor < pureVapor from hw)] at h
  simp only [Bind.bind, Except.bind] at h
  split at h
  · cases h
  · rename_i r hr
    obtain ⟨m, p⟩ := r
    simp only at h
    rw [if_pos hm] at h
    cases hmk : Stream.make m p s.mass with
    | error e => rw [hmk] at h; cases h
    | ok t =>
      rw [hmk] at h
      obtain ⟨-, rfl⟩ := make_ok hmk
      obtain ⟨-, rfl⟩ := make_ok h
      obtain ⟨k1, k2⟩ := hs.keeps _ _ _ _ hr
      have hp := hs.molar _ _ _ _ hr
      refine ⟨?_, hs.vapor _ _ _ _ hr, k1, k2, ?_⟩
      · unfold moles
        simp only
        have := ne_of_gt hp
        have := ne_of_gt hm
        field_simp
      · intro h0 hle
        simp only at hle ⊢
        have : s.props.vapor * p.molarMass / s.props.molarMass ≤ 1 := (div_le_one hm).mpr hle
        calc s.mass * (s.props.vapor * p.molarMass / s.props.molarMass) ≤ s.mass * 1 :=
              mul_le_mul_of_nonneg_left this h0
          _ = s.mass := mul_one _

/-- **Liquid remover**, dry stream: nothing happens. -/
theorem C60_dry (svc : Service) (s : Stream) (h : 9999 / 10000 ≤ s.props.vapor) : removeLiquid svc s = .ok s := by
  unfold removeLiquid
  rw [if_neg (not_lt.mpr (show pureVapor ≤ s.props.vapor from h))]

/-- What leaves a liquid remover is dry enough to be left alone by another one, and by a compressor. -/
theorem C60_once (svc : Service) (hs : Separates svc) (s o : Stream) (h : removeLiquid svc s = .ok o) :
    removeLiquid svc o = .ok o ∧ ∀ c : Compressor, c.propagate o ≠ .error .liquid ∨ ∃ n, c.outlet n o = .error .liquid := by
  have hv : pureVapor ≤ o.props.vapor := by
    rcases lt_or_ge s.props.vapor pureVapor with hw | hd
    · unfold removeLiquid at h
      rw [if_pos hw] at h
      simp only [Bind.bind, Except.bind] at h
      split at h
      · cases h
      · rename_i r hr
        obtain ⟨m, p⟩ := r
        simp only at h
        split at h
        · cases hmk : Stream.make m p s.mass with
          | error e => rw [hmk] at h; cases h
          | ok t =>
            rw [hmk] at h
            obtain ⟨-, rfl⟩ := make_ok hmk
            obtain ⟨-, rfl⟩ := make_ok h
            simp only
            rw [hs.vapor _ _ _ _ hr]
            exact le_of_lt pureVapor_lt_one
        · cases h
    · rw [C60_dry svc s hd] at h
      cases h
      exact hd
  refine ⟨C60_dry svc o hv, fun c => ?_⟩
  unfold Compressor.propagate
  rw [if_neg (not_lt.mpr hv)]
  unfold Compressor.getSpeed
  cases hc : c.speed with
  | none => left; simp [Bind.bind, Except.bind]
  | some n =>
    simp only [Bind.bind, Except.bind]
    split
    · left; simp
    · split
      · left; simp
      · by_cases he : c.outlet n o = .error .liquid
        · right; exact ⟨n, he⟩
        · left; exact he

/-- **Liquid remover** with a wet stream fails only if the separation fails, or on a degenerate stream. -/
theorem C60_remover_errors (svc : Service) (hs : Separates svc) (s : Stream) (h0 : 0 ≤ s.mass)
    (hv : 0 ≤ s.props.vapor) (hm : 0 < s.props.molarMass) (r : FluidModel × Props)
    (hr : svc.removeLiquid s.model s.props = .ok r) : ∃ o, removeLiquid svc s = .ok o := by
  unfold removeLiquid
  split
  · simp only [hr, Bind.bind, Except.bind, if_pos hm]
    rw [make_of h0]
    simp only
    unfold Stream.withMass
    rw [make_of]
    · exact ⟨_, rfl⟩
    · have hp := hs.molar _ _ _ _ (show svc.removeLiquid s.model s.props = .ok (r.1, r.2) from hr)
      exact mul_nonneg h0 (div_nonneg (mul_nonneg hv (le_of_lt hp)) (le_of_lt hm))
  · exact ⟨_, rfl⟩

/-! ## Temperature setter -/

/-- **Temperature setter**: the stream has the temperature, everything else that identifies it is kept; setting the same
temperature again changes nothing. -/
theorem C60_temperature (svc : Service) (hs : Lawful svc) (t : ℚ) (s o : Stream) (h : setTemperature svc t s = .ok o) :
    o.props.temperature = t ∧ o.mass = s.mass ∧ o.model = s.model ∧ o.props.pressure = s.props.pressure ∧
    setTemperature svc t o = .ok o := by
  have key : o.props.temperature = t ∧ o.mass = s.mass ∧ o.model = s.model ∧ o.props.pressure = s.props.pressure := by
    unfold setTemperature at h
    split at h
    · simp only [Bind.bind, Except.bind] at h
      split at h
      · cases h
      · rename_i r hr
        obtain ⟨-, rfl⟩ := make_ok h
        exact ⟨hs.temperature _ _ _ _ hr, rfl, rfl, hs.pressure _ _ _ _ hr⟩
    · rename_i ht
      cases h
      exact ⟨not_not.mp ht, rfl, rfl, rfl⟩
  refine ⟨key.1, key.2.1, key.2.2.1, key.2.2.2, ?_⟩
  unfold setTemperature
  rw [if_neg (not_not.mpr key.1)]

/-- A temperature setter fails only when the flash fails. -/
theorem C60_temperature_errors (svc : Service) (t : ℚ) (s : Stream) (h0 : 0 ≤ s.mass) (r : Props)
    (hr : svc.flashPT s.model s.props.pressure t = .ok r) : ∃ o, setTemperature svc t s = .ok o := by
  unfold setTemperature
  split
  · simp only [hr, Bind.bind, Except.bind]
    rw [make_of h0]
    exact ⟨_, rfl⟩
  · exact ⟨_, rfl⟩

/-! ## Direct mixing -/

/-- **Direct mixer and splitter**: the standard rate changes by exactly the given rate, nothing else changes, and one
undoes the other; a request that would make the mass rate negative is refused. -/
theorem C60_direct (rate : ℚ) (s : Stream) (h0 : 0 ≤ s.mass) (hd : 0 < s.props.stdDensity) :
    (∀ o, directMix rate s = .ok o → o.stdRate = s.stdRate + rate ∧ o.props = s.props ∧ o.model = s.model ∧
      directSplit rate o = .ok s) ∧
    (∀ o, directSplit rate s = .ok o → o.stdRate = s.stdRate - rate ∧ o.props = s.props ∧ o.model = s.model ∧
      directMix rate o = .ok s) ∧
    (directMix rate s = .error .negativeMass ↔ s.stdRate + rate < 0) ∧
    (directSplit rate s = .error .negativeMass ↔ s.stdRate < rate) := by
  have hne := ne_of_gt hd
  have hstd : s.stdRate * s.props.stdDensity / 24 = s.mass := by unfold Stream.stdRate; field_simp
  have err : ∀ {m : FluidModel} {p : Props} {x : ℚ}, Stream.make m p x = .error .negativeMass ↔ x < 0 := by
    intro m p x
    unfold Stream.make
    split <;> simp_all
  refine ⟨?_, ?_, ?_, ?_⟩
  · intro o h
    obtain ⟨-, rfl⟩ := make_ok h
    refine ⟨?_, rfl, rfl, ?_⟩
    · unfold Stream.stdRate; simp only; field_simp
    · unfold directSplit Stream.withMass
      simp only
      rw [show s.mass + rate * s.props.stdDensity / 24 - rate * s.props.stdDensity / 24 = s.mass by ring, make_of h0]
  · intro o h
    obtain ⟨-, rfl⟩ := make_ok h
    refine ⟨?_, rfl, rfl, ?_⟩
    · unfold Stream.stdRate; simp only; field_simp
    · unfold directMix Stream.withMass
      simp only
      rw [show s.mass - rate * s.props.stdDensity / 24 + rate * s.props.stdDensity / 24 = s.mass by ring, make_of h0]
  · unfold directMix Stream.withMass
    rw [err, ← hstd, ← add_div, ← add_mul]
    constructor
    · intro h
      by_contra hcon
      have := mul_nonneg (not_lt.mp hcon) (le_of_lt hd)
      linarith
    · intro h
      have := mul_neg_of_neg_of_pos h hd
      linarith
  · unfold directSplit Stream.withMass
    rw [err, ← hstd, ← sub_div, ← sub_mul]
    constructor
    · intro h
      by_contra hcon
      have : 0 ≤ s.stdRate - rate := by linarith
      have := mul_nonneg this (le_of_lt hd)
      linarith
    · intro h
      have : s.stdRate - rate < 0 := by linarith
      have := mul_neg_of_neg_of_pos this hd
      linarith

/-! ## Examples -/

/-- A service that takes the heavy half of the molar mass out. -/
def scrub : Service := { ideal with removeLiquid := fun m p => .ok (m, { p with vapor := 1, molarMass := 16 }) }

theorem scrub_separates : Separates scrub where
  keeps := by intro m p m' p' h; cases h; exact ⟨rfl, rfl⟩
  vapor := by intro m p m' p' h; cases h; rfl
  molar := by intro m p m' p' h; cases h; norm_num

/-- 240 kg/h at 20 kg/kmol, three quarters vapour: 9 of 12 kmol/h leave as 144 kg/h. -/
def wet : Stream := ⟨⟨.SRK, fun _ => 1⟩, ⟨300, 50, 1 / 6, 300, 3 / 4, 20, 4 / 5⟩, 240⟩

example : (removeLiquid scrub wet).map (fun o => (o.mass, o.props.vapor, moles o, moles wet)) = .ok (144, 1, 9, 12) := by
  decide +kernel
example : (setTemperature scrub 280 wet).map (fun o => (o.props.temperature, o.mass, o.props.pressure)) =
    .ok (280, 240, 50) := by decide +kernel
example : (directMix 100 wet).map (fun o => (o.stdRate, wet.stdRate)) = .ok (7300, 7200) := by decide +kernel
example : (directSplit 7201 wet).map (fun o => o.mass) = .error .negativeMass := by decide +kernel

end Verif.C60
