import Verif.Model.Rates

/-! # Helper lemmas about numpy-like operations and rate series -/

namespace Verif.RateLemmas
open Verif.Time Verif.Units Verif.Rates

theorem npOp_same {f : Fl → Fl → Fl} {xs ys : List Fl} (h : xs.length = ys.length) :
    npOp f xs ys = .ok (List.zipWith f xs ys) := by
  simp [npOp, h]

theorem zipWith_inverse {f g : Fl → Fl → Fl} {xs ys : List Fl} (h : xs.length = ys.length)
    (hfg : ∀ x ∈ xs, ∀ y ∈ ys, g (f x y) y = x) : List.zipWith g (List.zipWith f xs ys) ys = xs := by
  induction xs generalizing ys with
  | nil => simp
  | cons x xs ih =>
    cases ys with
    | nil => simp at h
    | cons y ys =>
      simp only [List.zipWith_cons_cons]
      rw [hfg x (by simp) y (by simp), ih (by simpa using h)]
      intro a ha b hb
      exact hfg a (by simp [ha]) b (by simp [hb])

end Verif.RateLemmas
