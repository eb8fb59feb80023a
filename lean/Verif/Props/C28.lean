import Verif.Model.Search
import Mathlib.Algebra.Order.Field.Basic
import Mathlib.Algebra.Order.AbsoluteValue.Basic
import Mathlib.Tactic.Linarith
import Mathlib.Tactic.Ring
import Mathlib.Tactic.NormNum

/-!
# C28: adaptive pressure damping stays in its bounds
-/

namespace Verif.C28
open Verif.Search

/-! ## Specification -/

/-- `x` lies between `a` and `b` (in either order). -/
def Between (a b x : ℚ) : Prop := (a ≤ x ∧ x ≤ b) ∨ (b ≤ x ∧ x ≤ a)

/-- The damping factor is within its fixed bounds. -/
def Bounded (s : DampState) : Prop := 1 / 10 ≤ s.beta ∧ s.beta ≤ 1

/-- The states and pressures of a sequence of updates, each with an old and a proposed pressure chosen by the
caller. -/
def history (s : DampState) : List (ℚ × ℚ) → List (ℚ × DampState)
  | [] => []
  | (old, proposed) :: rest =>
    let r := adaptiveUpdate old proposed s
    r :: history r.2 rest

/-- Updates towards one fixed proposal, each starting from the result of the one before. -/
def towards (target : ℚ) : Nat → ℚ → DampState → ℚ × DampState
  | 0, p, s => (p, s)
  | n + 1, p, s =>
    let r := adaptiveUpdate p target s
    towards target n r.1 r.2

/-! ## Lemmas -/

theorem step_bounded (old proposed : ℚ) (s : DampState) (h : Bounded s) :
    Bounded (adaptiveUpdate old proposed s).2 := by
  obtain ⟨h1, h2⟩ := h
  unfold adaptiveUpdate Bounded
  simp only
  generalize (if oscillates old (proposed - old) s.deltaPrev = true then s.flips + 1 else 0) = fl
  by_cases c1 : fl ≥ 2
  · rw [if_pos c1]
    exact ⟨le_max_left _ _, max_le (by norm_num) (by linarith)⟩
  · rw [if_neg c1]
    by_cases c2 : s.stable + 1 ≥ 3
    · rw [if_pos c2]
      exact ⟨le_min (by norm_num) (by linarith), min_le_left _ _⟩
    · rw [if_neg c2]
      exact ⟨h1, h2⟩

theorem step_value (old proposed : ℚ) (s : DampState) :
    (adaptiveUpdate old proposed s).1 = old + (adaptiveUpdate old proposed s).2.beta * (proposed - old) := rfl

theorem between_of (a b t : ℚ) (h0 : 0 ≤ t) (h1 : t ≤ 1) : Between a b (a + t * (b - a)) := by
  unfold Between
  rcases le_total a b with h | h
  · left
    constructor <;> nlinarith
  · right
    constructor <;> nlinarith

/-! ## Properties -/

/-- **Bounds.** From the initial state, whatever the sequence of updates: every damping factor is in its bounds and
every new pressure lies between the old and the proposed one. -/
theorem C28_bounds (updates : List (ℚ × ℚ)) :
    ∀ s, Bounded s → (∀ r ∈ history s updates, Bounded r.2) ∧ (history s updates).length = updates.length ∧
      ∀ (k : Nat) (hk : k < updates.length) (hk' : k < (history s updates).length),
        Between updates[k].1 updates[k].2 (history s updates)[k].1 := by
  induction updates with
  | nil => intro s _; simp [history]
  | cons u us ih =>
    intro s hs
    obtain ⟨old, proposed⟩ := u
    have hb := step_bounded old proposed s hs
    obtain ⟨h1, h2, h3⟩ := ih _ hb
    refine ⟨?_, by simp [history, h2], ?_⟩
    · intro r hr
      rcases List.mem_cons.mp hr with rfl | hr
      · exact hb
      · exact h1 r hr
    · intro k hk hk'
      cases k with
      | zero =>
        show Between old proposed (adaptiveUpdate old proposed s).1
        rw [step_value]
        exact between_of _ _ _ (le_trans (by norm_num) hb.1) hb.2
      | succ k => exact h3 k (by simpa using hk) (by simpa [history] using hk')

/-- The initial state is within the bounds. -/
theorem C28_start : Bounded {} := ⟨by norm_num, by norm_num⟩

/-- **Convergence.** Towards a fixed proposal the remaining distance shrinks at every update to at most nine tenths
(strict progress, no overshoot): after `n` updates it is at most `(9/10)^n` of the first distance. -/
theorem C28_converges (target : ℚ) : ∀ (n : Nat) (p : ℚ) (s : DampState), Bounded s →
    |(towards target n p s).1 - target| ≤ (9 / 10) ^ n * |p - target| := by
  intro n
  induction n with
  | zero => intro p s _; simp [towards]
  | succ n ih =>
    intro p s hs
    have hb := step_bounded p target s hs
    have h := ih (adaptiveUpdate p target s).1 (adaptiveUpdate p target s).2 hb
    have e : (adaptiveUpdate p target s).1 - target = (1 - (adaptiveUpdate p target s).2.beta) * (p - target) := by
      rw [step_value]; ring
    have h9 : |(adaptiveUpdate p target s).1 - target| ≤ 9 / 10 * |p - target| := by
      rw [e, abs_mul]
      have : |1 - (adaptiveUpdate p target s).2.beta| ≤ 9 / 10 := by
        rw [abs_of_nonneg (by linarith [hb.2])]
        linarith [hb.1]
      exact mul_le_mul_of_nonneg_right this (abs_nonneg _)
    have hp : (0 : ℚ) ≤ (9 / 10) ^ n := pow_nonneg (by norm_num) n
    calc |(towards target (n + 1) p s).1 - target|
        ≤ (9 / 10) ^ n * |(adaptiveUpdate p target s).1 - target| := h
      _ ≤ (9 / 10) ^ n * (9 / 10 * |p - target|) := mul_le_mul_of_nonneg_left h9 hp
      _ = (9 / 10) ^ (n + 1) * |p - target| := by ring

/-- **When damping engages.** The factor goes down only when this update and the one before it both reversed the
direction with a step of more than one per cent: the step counter of the state was at least one and this update
oscillates. -/
theorem C28_engages (old proposed : ℚ) (s : DampState) (hs : Bounded s)
    (h : (adaptiveUpdate old proposed s).2.beta < s.beta) :
    1 ≤ s.flips ∧ ∃ d, s.deltaPrev = some d ∧ (proposed - old) * d < 0 ∧ 1 / 100 * old < |proposed - old| := by
  unfold adaptiveUpdate at h
  simp only at h
  by_cases ho : oscillates old (proposed - old) s.deltaPrev = true
  · rw [if_pos ho] at h
    refine ⟨?_, ?_⟩
    · by_contra hf
      have : ¬ s.flips + 1 ≥ 2 := by omega
      rw [if_neg this] at h
      split at h
      · have : s.beta ≤ min 1 (s.beta * (3 / 2)) := le_min hs.2 (by linarith [hs.1])
        exact absurd h (not_lt.mpr this)
      · exact absurd h (lt_irrefl _)
    · unfold oscillates at ho
      cases hd : s.deltaPrev with
      | none => rw [hd] at ho; simp at ho
      | some d =>
        rw [hd] at ho
        simp only [Bool.and_eq_true, decide_eq_true_eq] at ho
        exact ⟨d, rfl, ho.1, ho.2⟩
  · rw [if_neg ho] at h
    have : ¬ (0 : Nat) ≥ 2 := by omega
    rw [if_neg this] at h
    split at h
    · have : s.beta ≤ min 1 (s.beta * (3 / 2)) := le_min hs.2 (by linarith [hs.1])
      exact absurd h (not_lt.mpr this)
    · exact absurd h (lt_irrefl _)

/-- The flip counter of a state counts the updates just made that reversed direction with a large step: an update
that does not resets it. -/
theorem C28_counter (old proposed : ℚ) (s : DampState) :
    (adaptiveUpdate old proposed s).2.flips =
      if (∃ d, s.deltaPrev = some d ∧ (proposed - old) * d < 0 ∧ 1 / 100 * old < |proposed - old|) then s.flips + 1
      else 0 := by
  have : oscillates old (proposed - old) s.deltaPrev = true ↔
      ∃ d, s.deltaPrev = some d ∧ (proposed - old) * d < 0 ∧ 1 / 100 * old < |proposed - old| := by
    unfold oscillates
    cases s.deltaPrev with
    | none => simp
    | some d => simp
  show (if oscillates old (proposed - old) s.deltaPrev = true then s.flips + 1 else 0) = _
  by_cases h : oscillates old (proposed - old) s.deltaPrev = true
  · rw [if_pos h, if_pos (this.mp h)]
  · rw [if_neg h, if_neg (fun hh => h (this.mpr hh))]

/-- **Undamped when nothing oscillates.** From the initial state, as long as no two successive updates reverse the
direction with a large step, every proposal is taken in full; in particular the first two always are. -/
theorem C28_first_two (o1 p1 o2 p2 : ℚ) :
    (history {} [(o1, p1), (o2, p2)]).map (·.1) = [p1, p2] := by
  have e1 : adaptiveUpdate o1 p1 {} = (p1, ⟨1, some (p1 - o1), 0, 1⟩) := by
    unfold adaptiveUpdate oscillates
    simp
  have e2 : (adaptiveUpdate o2 p2 ⟨1, some (p1 - o1), 0, 1⟩).1 = p2 := by
    unfold adaptiveUpdate
    simp only
    have : ∀ b : Bool, ¬ (if b = true then 0 + 1 else 0) ≥ 2 := by decide
    rw [if_neg (this _)]
    simp
  simp only [history, e1, List.map_cons, List.map_nil, e2]

/-! ## Examples -/

/-- Oscillating proposals around 50: the third reversal is damped to half. -/
example : (history {} [(50, 60), (60, 40), (40, 60), (60, 40)]).map (·.1) = [60, 40, 50, 55] := by decide +kernel

example : (towards 100 3 20 ⟨1 / 10, none, 0, 0⟩).1 = 20 + 8 + 72 / 10 + (3 / 20) * (648 / 10) := by decide +kernel

end Verif.C28
