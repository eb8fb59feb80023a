import Verif.Model.Inputs
import Mathlib.Algebra.Order.Field.Basic
import Mathlib.Tactic.Linarith
import Mathlib.Tactic.FieldSimp

/-!
# C23: the power loss factor scales consumption
-/

namespace Verif.C23
open Verif.Time Verif.Rates Verif.Inputs

/-! ## Specification -/

/-- The share `1 - f` of the reported usage `r` is the useful usage `u`. -/
def Useful (u f r : ℚ) : Prop := r - f * r = u

/-! ## Helper lemmas -/

theorem npAny_false (fs : List Fl) : npAny fs = false ↔ ∀ f ∈ fs, f = some 0 := by
  unfold npAny
  rw [← Bool.not_eq_true, List.any_eq_true]
  simp

theorem npAny_true (fs : List Fl) (h : npAny fs = true) : ∃ f ∈ fs, f ≠ some 0 := by
  unfold npAny at h
  rw [List.any_eq_true] at h
  obtain ⟨f, h1, h2⟩ := h
  exact ⟨f, h1, by simpa using h2⟩

theorem lossValues_some (fs : List Fl) (n : Nat) (hn : fs.length = n) : lossValues (some fs) n = fs := by
  cases fs with
  | nil => subst hn; rfl
  | cons a l => rfl

/-! ## Property -/

/-- Pointwise: one value per period, and in each period with a factor other than one the reported usage is such that
its useful part is the original usage; it is never smaller for a factor in [0, 1) and a non-negative usage. -/
theorem C23_usage (fs us : List ℚ) (hl : fs.length = us.length) (h1 : ∀ f ∈ fs, f ≠ 1) :
    ∃ rs : List ℚ, lossApply (some (fs.map some)) us.length (us.map some) = .ok (rs.map some) ∧
      rs.length = us.length ∧
      ∀ (k : Nat) (hk : k < fs.length) (hk' : k < us.length) (hk'' : k < rs.length),
        Useful us[k] fs[k] rs[k] ∧ (0 ≤ fs[k] → fs[k] < 1 → 0 ≤ us[k] → us[k] ≤ rs[k]) := by
  have hv : lossValues (some (fs.map some)) us.length = fs.map some := lossValues_some _ _ (by simp [hl])
  have key : ∀ u f r : ℚ, f ≠ 1 → r = u / (1 - f) → Useful u f r ∧ (0 ≤ f → f < 1 → 0 ≤ u → u ≤ r) := by
    intro u f r hf hr
    have hf' : 1 - f ≠ 0 := fun h => hf (by linarith)
    constructor
    · unfold Useful; rw [hr]; field_simp
    · intro h0 hlt hu
      have hp : 0 < 1 - f := by linarith
      rw [hr, le_div_iff₀ hp]
      nlinarith
  unfold lossApply
  simp only [hv]
  cases ha : npAny (fs.map some) with
  | false =>
    refine ⟨us, by simp, rfl, fun k hk hk' _ => ?_⟩
    rw [npAny_false] at ha
    have hf : fs[k] = 0 := by
      have := ha (some fs[k]) (by simp)
      exact Option.some.inj this
    exact key _ _ _ (by rw [hf]; norm_num) (by rw [hf]; simp)
  | true =>
    refine ⟨List.zipWith (fun u f => u / (1 - f)) us fs, ?_, by simp [hl], fun k hk hk' hk'' => ?_⟩
    · simp only [Bool.not_true, Bool.false_eq_true, if_false]
      unfold npOp
      rw [if_pos (by simp [hl])]
      congr 1
      apply List.ext_getElem
      · simp
      · intro i hi hi'
        simp only [List.getElem_zipWith, List.getElem_map]
        have hi2 : i < fs.length := by simp at hi; omega
        have hf : fs[i] ≠ 1 := h1 _ (by simp)
        have : (1 : ℚ) - fs[i] ≠ 0 := fun h => hf (by linarith)
        simp [Fl.sub, Fl.div, this]
    · exact key _ _ _ (h1 _ (by simp)) (by simp)

/-- Without a factor, or with the factor zero everywhere, the usage is unchanged (for any usage, missing values
included). -/
theorem C23_no_factor (n : Nat) (us : List Fl) (factor : Option (List Fl))
    (h : ∀ fs, factor = some fs → ∀ f ∈ fs, f = some 0) : lossApply factor n us = .ok us := by
  have : npAny (lossValues factor n) = false := by
    rw [npAny_false]
    match factor, h with
    | none, _ => intro f hf; exact List.eq_of_mem_replicate hf
    | some [], _ => intro f hf; exact List.eq_of_mem_replicate hf
    | some (a :: l), h => exact h _ rfl
  unfold lossApply
  simp [this]

/-- Finding: nothing restricts the factor. A factor of one gives no finite usage, without any error. -/
theorem C23_factor_one_not_finite (us : List Fl) (fs : List Fl) (hl : fs.length = us.length) (k : Nat)
    (hk : k < fs.length) (h : fs[k] = some 1) :
    ∃ rs, lossApply (some fs) us.length us = .ok rs ∧ ∃ (hk' : k < rs.length), rs[k] = none := by
  have hv : lossValues (some fs) us.length = fs := lossValues_some _ _ hl
  have ha : npAny fs = true := by
    rw [← Bool.not_eq_false, npAny_false]
    intro hall
    have := hall fs[k] (by simp)
    rw [h] at this
    simp at this
  unfold lossApply
  simp only [hv, ha, Bool.not_true, Bool.false_eq_true, if_false]
  unfold npOp
  rw [if_pos (by simp [hl])]
  refine ⟨_, rfl, by simp; omega, ?_⟩
  simp only [List.getElem_zipWith, List.getElem_map, h]
  cases us[k]'(by omega) <;> simp [Fl.sub, Fl.div]

/-- Finding: a factor above one turns a positive usage into a negative one, without any error. -/
theorem C23_factor_above_one_negative (u f : ℚ) (hu : 0 < u) (hf : 1 < f) :
    ∃ r : ℚ, lossApply (some [some f]) 1 [some u] = .ok [some r] ∧ r < 0 := by
  refine ⟨u / (1 - f), ?_, div_neg_iff.mpr (.inl ⟨hu, by linarith⟩)⟩
  have h0 : f ≠ 0 := by intro h; rw [h] at hf; linarith
  have h1 : (1 : ℚ) - f ≠ 0 := by intro h; linarith
  simp [lossApply, lossValues, npAny, npOp, h0, Fl.sub, Fl.div, h1]

/-! ## Non-vacuity -/

example : lossApply (some [some (1/2), some 0]) 2 [some 3, some 4] = .ok [some 6, some 4] := by decide +kernel

end Verif.C23
