import Verif.Model.Outlet
import Verif.Props.C28
import Mathlib.Tactic.Linarith
import Mathlib.Tactic.FieldSimp

/-!
# C83 The outlet state of a compressor

The thermodynamics (`flash`, `campbell`) are arbitrary functions. `Accepted` says in plain terms what a usable outlet
state is.
-/

namespace Verif.C83
open Verif.Outlet Verif.Process Verif.Search

/-- A usable state with the wanted enthalpy: every quantity is positive, the vapour fraction is a fraction, and the
enthalpy is right to 10 J/kg or one part in ten thousand. -/
structure Accepted (s : State) (target : ℚ) : Prop where
  pressure : 0 < s.pressure
  temperature : 0 < s.temperature
  density : 0 < s.density
  z : 0 < s.z
  kappa : 0 < s.kappa
  stdDensity : 0 < s.stdDensity
  vapor : -(1 / 100000) ≤ s.vapor ∧ s.vapor ≤ 1 + 1 / 100000
  enthalpy : |s.enthalpy - target| ≤ 10 ∨ |s.enthalpy - target| ≤ |target| / 10000

/-! ## Lemmas -/

theorem valid_iff (s : State) (target : ℚ) : validPH s target = true ↔ Accepted s target := by
  unfold validPH
  simp only [Bool.and_eq_true, decide_eq_true_eq, le_max_iff]
  constructor
  · rintro ⟨⟨⟨⟨⟨⟨⟨h1, h2⟩, h3⟩, h4⟩, h5⟩, h6⟩, h7⟩, h8⟩
    exact ⟨h1, h2, h3, h4, h5, h6, h7, by rcases h8 with h | h; exact .inl h; exact .inr (by linarith)⟩
  · rintro ⟨h1, h2, h3, h4, h5, h6, h7, h8⟩
    exact ⟨⟨⟨⟨⟨⟨⟨h1, h2⟩, h3⟩, h4⟩, h5⟩, h6⟩, h7⟩, by rcases h8 with h | h; exact .inl h; exact .inr (by linarith)⟩

theorem flash_ok {flash : ℚ → ℚ → Option State} {p target : ℚ} {s : State} :
    flashChecked flash p target = .ok s ↔ flash p target = some s ∧ Accepted s target := by
  unfold flashChecked
  cases h : flash p target with
  | none => simp
  | some t =>
    simp only [Option.some.injEq]
    by_cases hv : validPH t target = true
    · rw [if_pos hv]
      constructor
      · intro he; cases Except.ok.inj he; exact ⟨rfl, (valid_iff _ _).mp hv⟩
      · rintro ⟨rfl, -⟩; rfl
    · rw [if_neg hv]
      constructor
      · intro he; cases he
      · rintro ⟨rfl, ha⟩; exact absurd ((valid_iff _ _).mpr ha) hv

theorem flash_error {flash : ℚ → ℚ → Option State} {p target : ℚ} {e : PErr}
    (h : flashChecked flash p target = .error e) : e = .thermo := by
  unfold flashChecked at h
  cases hf : flash p target with
  | none => rw [hf] at h; exact (Except.error.inj h).symm
  | some t =>
    rw [hf] at h
    simp only at h
    split at h
    · cases h
    · exact (Except.error.inj h).symm

section
variable {flash : ℚ → ℚ → Option State} {campbell : ℚ → ℚ → Option ℚ} {inlet : State} {target : ℚ}

/-- One round of the loop that does not fail. -/
theorem loop_step {n : Nat} {p : ℚ} {d : DampState} {cur : State} {r : State × Bool}
    (h : outletLoop flash campbell inlet target (n + 1) p d cur = .ok r) :
    ∃ raw s, campbell ((inlet.kappa + cur.kappa) / 2) ((inlet.z + cur.z) / 2) = some raw ∧ 0 < raw ∧
      0 < (adaptiveUpdate p raw d).1 ∧ flash (adaptiveUpdate p raw d).1 target = some s ∧ Accepted s target ∧
      ((|p - (adaptiveUpdate p raw d).1| / (adaptiveUpdate p raw d).1 < 1 / 1000 ∧ r = (s, true)) ∨
       (1 / 1000 ≤ |p - (adaptiveUpdate p raw d).1| / (adaptiveUpdate p raw d).1 ∧
        outletLoop flash campbell inlet target n (adaptiveUpdate p raw d).1 (adaptiveUpdate p raw d).2 s = .ok r)) := by
  unfold outletLoop at h
  cases hc : campbell ((inlet.kappa + cur.kappa) / 2) ((inlet.z + cur.z) / 2) with
  | none => rw [hc] at h; cases h
  | some raw =>
    rw [hc] at h
    simp only at h
    by_cases h1 : raw ≤ 0
    · rw [if_pos h1] at h; cases h
    rw [if_neg h1] at h
    by_cases h2 : (adaptiveUpdate p raw d).1 ≤ 0
    · rw [if_pos h2] at h; cases h
    rw [if_neg h2] at h
    push Not at h1 h2
    cases hf : flashChecked flash (adaptiveUpdate p raw d).1 target with
    | error e => rw [hf] at h; cases h
    | ok s =>
      rw [hf] at h
      simp only at h
      obtain ⟨f1, f2⟩ := flash_ok.mp hf
      refine ⟨raw, s, rfl, h1, h2, f1, f2, ?_⟩
      by_cases h3 : |p - (adaptiveUpdate p raw d).1| / (adaptiveUpdate p raw d).1 < pressureTolerance
      · rw [if_pos h3] at h
        exact .inl ⟨h3, (Except.ok.inj h).symm⟩
      · rw [if_neg h3] at h
        exact .inr ⟨not_lt.mp h3, h⟩

/-- A round that goes well, forwards. -/
theorem loop_run {n : Nat} {p raw : ℚ} {d : DampState} {cur s : State}
    (hc : campbell ((inlet.kappa + cur.kappa) / 2) ((inlet.z + cur.z) / 2) = some raw) (hr : 0 < raw)
    (hu : 0 < (adaptiveUpdate p raw d).1) (hf : flash (adaptiveUpdate p raw d).1 target = some s)
    (ha : Accepted s target) :
    outletLoop flash campbell inlet target (n + 1) p d cur =
      if |p - (adaptiveUpdate p raw d).1| / (adaptiveUpdate p raw d).1 < 1 / 1000 then .ok (s, true)
      else outletLoop flash campbell inlet target n (adaptiveUpdate p raw d).1 (adaptiveUpdate p raw d).2 s := by
  conv_lhs => unfold outletLoop
  rw [hc]
  simp only
  rw [if_neg (not_le.mpr hr), if_neg (not_le.mpr hu), flash_ok.mpr ⟨hf, ha⟩]
  rfl

theorem loop_state (n : Nat) : ∀ {p : ℚ} {d : DampState} {cur : State} {r : State × Bool} {q : ℚ},
    0 < q → flash q target = some cur → Accepted cur target →
    outletLoop flash campbell inlet target n p d cur = .ok r →
    ∃ q, 0 < q ∧ flash q target = some r.1 ∧ Accepted r.1 target := by
  induction n with
  | zero =>
    intro p d cur r q hq hf ha h
    cases Except.ok.inj h
    exact ⟨q, hq, hf, ha⟩
  | succ n ih =>
    intro p d cur r q hq hf ha h
    obtain ⟨raw, s, -, -, hu, hfs, has, h | h⟩ := loop_step h
    · rw [h.2]; exact ⟨_, hu, hfs, has⟩
    · exact ih hu hfs has h.2

/-- What a stop of the loop means, for the state before the last round and the last proposal. -/
theorem loop_converged (n : Nat) : ∀ {p : ℚ} {d : DampState} {cur s : State} {q : ℚ},
    C28.Bounded d → 0 < q → flash q target = some cur → Accepted cur target →
    outletLoop flash campbell inlet target n p d cur = .ok (s, true) →
    ∃ before p' q' raw pressure, flash q' target = some before ∧ Accepted before target ∧ 0 < q' ∧
      (q' = p' ∨ (q' = q ∧ p' = p ∧ before = cur)) ∧
      campbell ((inlet.kappa + before.kappa) / 2) ((inlet.z + before.z) / 2) = some raw ∧
      0 < pressure ∧ flash pressure target = some s ∧
      |p' - pressure| < pressure / 1000 ∧ |raw - pressure| ≤ 9 * |p' - pressure| := by
  induction n with
  | zero =>
    intro p d cur s q hb hq hf ha h
    cases Except.ok.inj h
  | succ n ih =>
    intro p d cur s q hb hq hf ha h
    obtain ⟨raw, s', hc, hr, hu, hfs, has, h | h⟩ := loop_step h
    · obtain ⟨hd, he⟩ := h
      cases he
      rw [div_lt_iff₀ hu] at hd
      refine ⟨cur, p, q, raw, _, hf, ha, hq, .inr ⟨rfl, rfl, rfl⟩, hc, hu, hfs, by linarith, ?_⟩
      obtain ⟨b1, b2⟩ := C28.step_bounded p raw d hb
      rw [C28.step_value]
      generalize (adaptiveUpdate p raw d).2.beta = b at b1 b2
      have e1 : raw - (p + b * (raw - p)) = (1 - b) * (raw - p) := by ring
      have e2 : p - (p + b * (raw - p)) = -(b * (raw - p)) := by ring
      rw [e1, e2, abs_neg, abs_mul, abs_mul, abs_of_nonneg (show 0 ≤ 1 - b by linarith),
        abs_of_nonneg (show 0 ≤ b by linarith)]
      have := abs_nonneg (raw - p)
      nlinarith
    · obtain ⟨before, p', q', raw', pr, h1, h2, h3, h4, h5⟩ := ih (C28.step_bounded p raw d hb) hu hfs has h.2
      refine ⟨before, p', q', raw', pr, h1, h2, h3, ?_, h5⟩
      rcases h4 with h4 | ⟨h4, h4', -⟩
      · exact .inl h4
      · exact .inl (h4.trans h4'.symm)

theorem first_pos {guess : ℚ} (h : 0 < guess) : 0 < (if guess > maxFirstGuess then maxFirstGuess else guess) := by
  split_ifs
  · unfold maxFirstGuess; norm_num
  · exact h

theorem first_le (guess : ℚ) : (if guess > maxFirstGuess then maxFirstGuess else guess) ≤ 2000 := by
  split_ifs with h
  · exact le_of_eq rfl
  · exact not_lt.mp h

/-- The start of a calculation that does not fail. -/
theorem start {head eff : ℚ} {r : State × Bool} (h : outletState flash campbell inlet head eff = .ok r) :
    ∃ guess s, campbell inlet.kappa inlet.z = some guess ∧ 0 < guess ∧
      flash (if guess > maxFirstGuess then maxFirstGuess else guess) (inlet.enthalpy + head / eff) = some s ∧
      Accepted s (inlet.enthalpy + head / eff) ∧
      outletLoop flash campbell inlet (inlet.enthalpy + head / eff) 30
        ((if guess > maxFirstGuess then maxFirstGuess else guess) * (95 / 100)) {} s = .ok r := by
  unfold outletState at h
  cases hc : campbell inlet.kappa inlet.z with
  | none => rw [hc] at h; cases h
  | some guess =>
    rw [hc] at h
    simp only at h
    by_cases h1 : guess ≤ 0
    · rw [if_pos h1] at h; cases h
    rw [if_neg h1] at h
    push Not at h1
    refine ⟨guess, ?_⟩
    generalize (if guess > maxFirstGuess then maxFirstGuess else guess) = first at h
    cases hf : flashChecked flash first (inlet.enthalpy + head / eff) with
    | error e => rw [hf] at h; cases h
    | ok s =>
      rw [hf] at h
      obtain ⟨f1, f2⟩ := flash_ok.mp hf
      exact ⟨s, rfl, h1, f1, f2, h⟩
end

/-! ## Theorems -/

/-- **Energy.** An outlet state is the result of a flash at a positive pressure with the enthalpy of the inlet plus the
work per kilogram (head over efficiency), and it has that enthalpy within the tolerance of the flash. -/
theorem C83_energy (flash : ℚ → ℚ → Option State) (campbell : ℚ → ℚ → Option ℚ) (inlet : State) (head eff : ℚ)
    (s : State) (c : Bool) (h : outletState flash campbell inlet head eff = .ok (s, c)) :
    ∃ pressure, 0 < pressure ∧ flash pressure (inlet.enthalpy + head / eff) = some s ∧
      Accepted s (inlet.enthalpy + head / eff) := by
  obtain ⟨guess, s0, -, hg, hf, ha, hl⟩ := start h
  exact loop_state 30 (first_pos hg) hf ha hl

/-- **Pressure.** When the loop converges, the pressure of the flash agrees to nine parts in a thousand with Campbell's
outlet pressure for the mean of inlet and outlet gas, where the outlet gas is the one of the round before: it was
flashed at a pressure within one part in a thousand, or (when the very first round converges) within six parts in a
hundred. -/
theorem C83_pressure (flash : ℚ → ℚ → Option State) (campbell : ℚ → ℚ → Option ℚ) (inlet : State) (head eff : ℚ)
    (s : State) (h : outletState flash campbell inlet head eff = .ok (s, true)) :
    ∃ pressure earlier before raw, 0 < pressure ∧ flash pressure (inlet.enthalpy + head / eff) = some s ∧
      flash earlier (inlet.enthalpy + head / eff) = some before ∧
      campbell ((inlet.kappa + before.kappa) / 2) ((inlet.z + before.z) / 2) = some raw ∧
      |raw - pressure| ≤ 9 / 1000 * pressure ∧
      (|earlier - pressure| < 1 / 1000 * pressure ∨
        campbell inlet.kappa inlet.z = some earlier ∧ |earlier - pressure| < 6 / 100 * pressure ∨
        earlier = 2000 ∧ |earlier - pressure| < 6 / 100 * pressure) := by
  obtain ⟨guess, s0, hc, hg, hf, ha, hl⟩ := start h
  obtain ⟨before, p', q', raw, pressure, h1, h2, h3, h4, h5, h6, h7, h8, h9⟩ :=
    loop_converged 30 C28.C28_start (first_pos hg) hf ha hl
  refine ⟨pressure, q', before, raw, h6, h7, h1, h5, by linarith, ?_⟩
  rcases h4 with h4 | ⟨h4, h4', -⟩
  · left; rw [h4]; linarith
  · right
    rw [h4'] at h8
    have key : |q' - pressure| < 6 / 100 * pressure := by
      rw [← h4] at h8
      rw [abs_lt] at h8 ⊢
      constructor <;> linarith [h8.1, h8.2]
    by_cases hb : guess > maxFirstGuess
    · rw [if_pos hb] at h4
      exact .inr ⟨h4, key⟩
    · rw [if_neg hb] at h4
      exact .inl ⟨by rw [hc, h4], key⟩

/-- **Only one kind of failure.** Whatever goes wrong, the caller sees a compressor outlet calculation error. -/
theorem C83_errors (flash : ℚ → ℚ → Option State) (campbell : ℚ → ℚ → Option ℚ) (inlet : State) (head eff : ℚ)
    (e : PErr) (h : outletState flash campbell inlet head eff = .error e) : e = .thermo := by
  have loop : ∀ n target p d cur, outletLoop flash campbell inlet target n p d cur = .error e → e = .thermo := by
    intro n target
    induction n with
    | zero => intro p d cur h; cases h
    | succ n ih =>
      intro p d cur h
      unfold outletLoop at h
      cases hc : campbell ((inlet.kappa + cur.kappa) / 2) ((inlet.z + cur.z) / 2) with
      | none => rw [hc] at h; exact (Except.error.inj h).symm
      | some raw =>
        rw [hc] at h
        simp only at h
        by_cases h1 : raw ≤ 0
        · rw [if_pos h1] at h; exact (Except.error.inj h).symm
        rw [if_neg h1] at h
        by_cases h2 : (adaptiveUpdate p raw d).1 ≤ 0
        · rw [if_pos h2] at h; exact (Except.error.inj h).symm
        · rw [if_neg h2] at h
          cases hf : flashChecked flash (adaptiveUpdate p raw d).1 target with
          | error e' => rw [hf] at h; cases Except.error.inj h; exact flash_error hf
          | ok s =>
            rw [hf] at h
            simp only at h
            split_ifs at h
            exact ih _ _ _ h
  unfold outletState at h
  cases hc : campbell inlet.kappa inlet.z with
  | none => rw [hc] at h; exact (Except.error.inj h).symm
  | some guess =>
    rw [hc] at h
    simp only at h
    by_cases h1 : guess ≤ 0
    · rw [if_pos h1] at h; exact (Except.error.inj h).symm
    · rw [if_neg h1] at h
      generalize (if guess > maxFirstGuess then maxFirstGuess else guess) = first at h
      cases hf : flashChecked flash first (inlet.enthalpy + head / eff) with
      | error e' => rw [hf] at h; cases Except.error.inj h; exact flash_error hf
      | ok s => rw [hf] at h; exact loop _ _ _ _ _ h

/-- **The equation of state is never asked for a non-positive pressure.** Two thermodynamics that agree on positive
pressures give the same outcome. -/
theorem C83_positive_only (flash flash' : ℚ → ℚ → Option State) (campbell : ℚ → ℚ → Option ℚ) (inlet : State)
    (head eff : ℚ) (agree : ∀ p target, 0 < p → flash p target = flash' p target) :
    outletState flash campbell inlet head eff = outletState flash' campbell inlet head eff := by
  have checked : ∀ p target, 0 < p → flashChecked flash p target = flashChecked flash' p target := by
    intro p target hp; unfold flashChecked; rw [agree p target hp]
  have loop : ∀ n target p d cur, outletLoop flash campbell inlet target n p d cur =
      outletLoop flash' campbell inlet target n p d cur := by
    intro n target
    induction n with
    | zero => intro p d cur; rfl
    | succ n ih =>
      intro p d cur
      unfold outletLoop
      cases campbell ((inlet.kappa + cur.kappa) / 2) ((inlet.z + cur.z) / 2) with
      | none => rfl
      | some raw =>
        simp only
        by_cases h1 : raw ≤ 0
        · rw [if_pos h1, if_pos h1]
        · rw [if_neg h1, if_neg h1]
          by_cases h2 : (adaptiveUpdate p raw d).1 ≤ 0
          · rw [if_pos h2, if_pos h2]
          · rw [if_neg h2, if_neg h2, checked _ _ (not_le.mp h2)]
            cases flashChecked flash' (adaptiveUpdate p raw d).1 target with
            | error e => rfl
            | ok s => simp only [ih]
  unfold outletState
  cases hc : campbell inlet.kappa inlet.z with
  | none => rfl
  | some guess =>
    simp only
    by_cases h1 : guess ≤ 0
    · rw [if_pos h1, if_pos h1]
    · rw [if_neg h1, if_neg h1, checked _ _ (first_pos (not_le.mp h1))]
      simp only [loop]

/-- **The first flash is capped.** It is at Campbell's pressure for the inlet gas or at 2000 bar if that is lower; if it
fails, so does the calculation. -/
theorem C83_first (flash : ℚ → ℚ → Option State) (campbell : ℚ → ℚ → Option ℚ) (inlet : State) (head eff guess : ℚ)
    (hc : campbell inlet.kappa inlet.z = some guess)
    (hf : flash (min guess 2000) (inlet.enthalpy + head / eff) = none) :
    outletState flash campbell inlet head eff = .error .thermo := by
  unfold outletState
  rw [hc]
  simp only
  by_cases h1 : guess ≤ 0
  · rw [if_pos h1]
  · rw [if_neg h1]
    have : (if guess > maxFirstGuess then maxFirstGuess else guess) = min guess 2000 := by
      unfold maxFirstGuess
      by_cases h : guess > 2000
      · rw [if_pos h, min_eq_right (le_of_lt h)]
      · rw [if_neg h, min_eq_left (not_lt.mp h)]
    rw [this]
    unfold flashChecked
    rw [hf]

/-- **Range.** If Campbell's pressures for all mean gases lie between two positive bounds, which also hold 0.95 times
the first guess, the outlet is flashed at a pressure between these bounds. -/
theorem C83_range (flash : ℚ → ℚ → Option State) (campbell : ℚ → ℚ → Option ℚ) (inlet : State) (head eff lo hi : ℚ)
    (hlo : 0 < lo) (hc : ∀ k z r, campbell k z = some r → lo ≤ r ∧ r ≤ hi)
    (hstart : ∀ r, campbell inlet.kappa inlet.z = some r → lo ≤ min r 2000 * (95 / 100))
    (s : State) (c : Bool) (h : outletState flash campbell inlet head eff = .ok (s, c)) :
    ∃ pressure, lo ≤ pressure ∧ pressure ≤ hi ∧ flash pressure (inlet.enthalpy + head / eff) = some s := by
  obtain ⟨guess, s0, hcg, hg, hf, ha, hl⟩ := start h
  have hfirst : (if guess > maxFirstGuess then maxFirstGuess else guess) = min guess 2000 := by
    unfold maxFirstGuess
    by_cases h : guess > 2000
    · rw [if_pos h, min_eq_right (le_of_lt h)]
    · rw [if_neg h, min_eq_left (not_lt.mp h)]
  rw [hfirst] at hf hl
  have hs := hstart _ hcg
  have hmin : 0 < min guess 2000 := by linarith
  have hge : min guess 2000 ≤ hi := le_trans (min_le_left _ _) (hc _ _ _ hcg).2
  have loop : ∀ n p (d : DampState) cur q, C28.Bounded d → lo ≤ p → p ≤ hi → lo ≤ q → q ≤ hi →
      flash q (inlet.enthalpy + head / eff) = some cur →
      outletLoop flash campbell inlet (inlet.enthalpy + head / eff) n p d cur = .ok (s, c) →
      ∃ pressure, lo ≤ pressure ∧ pressure ≤ hi ∧ flash pressure (inlet.enthalpy + head / eff) = some s := by
    intro n
    induction n with
    | zero =>
      intro p d cur q _ _ _ hq1 hq2 hf h
      cases Except.ok.inj h
      exact ⟨q, hq1, hq2, hf⟩
    | succ n ih =>
      intro p d cur q hb hp1 hp2 hq1 hq2 hf h
      obtain ⟨raw, s', hc', hr, hu, hfs, has, h⟩ := loop_step h
      obtain ⟨r1, r2⟩ := hc _ _ _ hc'
      obtain ⟨b1, b2⟩ := C28.step_bounded p raw d hb
      have hv := C28.step_value p raw d
      have i1 : lo ≤ (adaptiveUpdate p raw d).1 := by rw [hv]; nlinarith
      have i2 : (adaptiveUpdate p raw d).1 ≤ hi := by rw [hv]; nlinarith
      rcases h with h | h
      · cases h.2; exact ⟨_, i1, i2, hfs⟩
      · exact ih _ _ _ _ (C28.step_bounded p raw d hb) i1 i2 i1 i2 hfs h.2
  exact loop 30 _ _ _ _ C28.C28_start hs (by linarith) (by linarith) hge hf hl

/-- **Convergence.** If Campbell's pressure depends so little on the gas that it stays within four parts in ten thousand
of one pressure, and the flash always succeeds, the loop converges and the outlet is flashed within four parts in ten
thousand of that pressure, also when this is far above 2000 bar. -/
theorem C83_converges (flash : ℚ → ℚ → Option State) (campbell : ℚ → ℚ → Option ℚ) (inlet : State)
    (head eff centre : ℚ) (hr : 0 < centre)
    (hc : ∀ k z, ∃ r, campbell k z = some r ∧ |r - centre| ≤ 4 / 10000 * centre)
    (hf : ∀ p, 0 < p → ∃ s, flash p (inlet.enthalpy + head / eff) = some s ∧ Accepted s (inlet.enthalpy + head / eff)) :
    ∃ pressure s, |pressure - centre| ≤ 4 / 10000 * centre ∧
      flash pressure (inlet.enthalpy + head / eff) = some s ∧
      outletState flash campbell inlet head eff = .ok (s, true) := by
  obtain ⟨guess, hg, hgb⟩ := hc inlet.kappa inlet.z
  have hpos : ∀ r : ℚ, |r - centre| ≤ 4 / 10000 * centre → 0 < r := by
    intro r h; have := (abs_le.mp h).1; linarith
  have hgp := hpos _ hgb
  have hfp := first_pos hgp
  have hunf : outletState flash campbell inlet head eff =
      (match flashChecked flash (if guess > maxFirstGuess then maxFirstGuess else guess) (inlet.enthalpy + head / eff) with
      | .error e => .error e
      | .ok s => outletLoop flash campbell inlet (inlet.enthalpy + head / eff) 30
          ((if guess > maxFirstGuess then maxFirstGuess else guess) * (95 / 100)) {} s) := by
    unfold outletState
    rw [hg]
    simp only
    rw [if_neg (not_le.mpr hgp)]
    rfl
  rw [hunf]
  generalize (if guess > maxFirstGuess then maxFirstGuess else guess) = first at hfp
  generalize inlet.enthalpy + head / eff = target at hf
  obtain ⟨s0, f0, a0⟩ := hf first hfp
  rw [flash_ok.mpr ⟨f0, a0⟩]
  simp only
  -- first round: the pressure becomes the proposal
  obtain ⟨r1, c1, b1⟩ := hc ((inlet.kappa + s0.kappa) / 2) ((inlet.z + s0.z) / 2)
  have p1 := hpos _ b1
  have e1 : adaptiveUpdate (first * (95 / 100)) r1 {} = (r1, ⟨1, some (r1 - first * (95 / 100)), 0, 1⟩) := by
    unfold adaptiveUpdate oscillates
    simp
  obtain ⟨s1, f1, a1⟩ := hf r1 p1
  have q1 := loop_run (flash := flash) (campbell := campbell) (target := target) (n := 29) (p := first * (95 / 100))
    (d := {}) c1 p1 (by rw [e1]; exact p1) (by rw [e1]; exact f1) a1
  rw [e1] at q1
  simp only at q1
  rw [q1]
  by_cases hstop : |first * (95 / 100) - r1| / r1 < 1 / 1000
  · rw [if_pos hstop]
    exact ⟨r1, s1, b1, f1, rfl⟩
  · rw [if_neg hstop]
    -- second round: the pressure becomes the second proposal, and both are close
    obtain ⟨r2, c2, b2⟩ := hc ((inlet.kappa + s1.kappa) / 2) ((inlet.z + s1.z) / 2)
    have p2 := hpos _ b2
    have e2 : (adaptiveUpdate r1 r2 ⟨1, some (r1 - first * (95 / 100)), 0, 1⟩).1 = r2 := by
      unfold adaptiveUpdate oscillates
      simp only
      split_ifs <;> norm_num at *
    obtain ⟨s2, f2, a2⟩ := hf r2 p2
    have q2 := loop_run (flash := flash) (campbell := campbell) (target := target) (n := 28) (p := r1)
      (d := ⟨1, some (r1 - first * (95 / 100)), 0, 1⟩) c2 p2 (by rw [e2]; exact p2) (by rw [e2]; exact f2) a2
    rw [q2, e2, if_pos]
    · exact ⟨r2, s2, b2, f2, rfl⟩
    · rw [div_lt_iff₀ p2, abs_lt]
      obtain ⟨x1, x2⟩ := abs_le.mp b1
      obtain ⟨y1, y2⟩ := abs_le.mp b2
      constructor <;> linarith

/-- **An ideal case, exactly.** If Campbell's pressure does not depend on the gas, the outlet is flashed at exactly this
pressure; the cap of 2000 bar on the first guess does not cap the result. -/
theorem C83_exact (flash : ℚ → ℚ → Option State) (campbell : ℚ → ℚ → Option ℚ) (inlet : State)
    (head eff pressure : ℚ) (hr : 0 < pressure) (hc : ∀ k z, campbell k z = some pressure)
    (hf : ∀ p, 0 < p → ∃ s, flash p (inlet.enthalpy + head / eff) = some s ∧ Accepted s (inlet.enthalpy + head / eff)) :
    ∃ s, flash pressure (inlet.enthalpy + head / eff) = some s ∧
      outletState flash campbell inlet head eff = .ok (s, true) := by
  obtain ⟨p, s, -, h2, h3⟩ := C83_converges flash campbell inlet head eff pressure hr
    (fun k z => ⟨pressure, hc k z, by rw [sub_self, abs_zero]; linarith⟩) hf
  obtain ⟨s', g1, g2⟩ := hf pressure hr
  refine ⟨s', g1, ?_⟩
  obtain ⟨guess, s0, hcg, hg, hf0, ha0, hl⟩ := start h3
  rw [h3]
  congr 2
  -- the last flash is at the first proposal reached
  have hall : ∀ n p (d : DampState) cur, d.beta = 1 → d.flips = 0 → (p = pressure ∨ d.deltaPrev = none) →
      outletLoop flash campbell inlet (inlet.enthalpy + head / eff) n p d cur = .ok (s, true) → s = s' := by
    intro n
    induction n with
    | zero => intro p d cur _ _ _ h; cases Except.ok.inj h
    | succ n ih =>
      intro p d cur hb hfl hp h
      obtain ⟨raw, s1, hc1, -, hu, hfs, has, h⟩ := loop_step h
      have hraw : raw = pressure := by rw [hc] at hc1; exact (Option.some.inj hc1).symm
      subst hraw
      have hno : oscillates p (raw - p) d.deltaPrev = false := by
        unfold oscillates
        rcases hp with hp | hp
        · subst hp
          cases d.deltaPrev <;> simp
        · rw [hp]
      have hupd : (adaptiveUpdate p raw d).1 = raw ∧ (adaptiveUpdate p raw d).2.beta = 1 ∧
          (adaptiveUpdate p raw d).2.flips = 0 := by
        unfold adaptiveUpdate
        simp only [hno, hb]
        split_ifs <;> norm_num at *
      rw [hupd.1] at hfs h
      rcases h with h | h
      · cases h.2
        rw [g1] at hfs; exact (Option.some.inj hfs).symm
      · exact ih _ _ _ hupd.2.1 hupd.2.2 (.inl rfl) h.2
  exact hall _ _ _ _ rfl rfl (.inr rfl) hl

/-! ## Examples -/

/-- A gas whose properties do not change, with the enthalpy that is asked for. -/
def exFlash : ℚ → ℚ → Option State := fun p h => some ⟨p, 300, p, h, 1, 3 / 2, 1, 1⟩

def exInlet : State := ⟨10, 300, 10, 5000, 1, 3 / 2, 1, 1⟩

/-- A proposal of 40 bar: flashed there, with 1000/0.8 J/kg more than the inlet. -/
example : outletState exFlash (fun _ _ => some 40) exInlet 1000 (8 / 10) =
    .ok (⟨40, 300, 40, 6250, 1, 3 / 2, 1, 1⟩, true) := by decide +kernel

/-- 3000 bar: the first flash is capped, the outlet is not. -/
example : outletState exFlash (fun _ _ => some 3000) exInlet 1000 (8 / 10) =
    .ok (⟨3000, 300, 3000, 6250, 1, 3 / 2, 1, 1⟩, true) := by decide +kernel

/-- A gas that gets stiffer with the pressure: the proposal falls with the mean compressibility, the loop converges. -/
def exReal : ℚ → ℚ → Option State := fun p h => some ⟨p, 300, p, h, 1 + p / 1000, 3 / 2, 1, 1⟩

example : (outletState exReal (fun _ z => some (40 / z)) exInlet 1000 (8 / 10)).map (·.2) = .ok true := by
  decide +kernel

/-- A proposal that gives up when the gas changes: a failure, not a state. -/
example : outletState exReal (fun _ z => if z = 1 then some 40 else none) exInlet 1000 (8 / 10) = .error .thermo := by
  decide +kernel

/-- A flash that misses the enthalpy by 20 J/kg is refused. -/
example : outletState (fun p h => some ⟨p, 300, p, h + 20, 1, 3 / 2, 1, 1⟩) (fun _ _ => some 40) exInlet 1000 (8 / 10) =
    .error .thermo := by decide +kernel

/-- The first round can already converge: the proposal for the mean gas is 0.95 of the first guess. The properties then
belong to a pressure five per cent too high. -/
example : outletState exReal (fun _ z => if z = 1 then some 40 else some 38) exInlet 1000 (8 / 10) =
    .ok (⟨38, 300, 38, 6250, 1038 / 1000, 3 / 2, 1, 1⟩, true) := by decide +kernel

end Verif.C83
