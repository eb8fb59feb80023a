import Verif.Model.Finders
import Verif.Props.C27
import Mathlib.Tactic.Linarith

/-!
# Lemmas about bisection with probes that may raise
-/

namespace Verif.BisectE
open Verif.Process Verif.Search Verif.Finders Verif.C27

/-- A probe that may raise, made total. -/
def total (probe : ℚ → Except PErr Probe) (x : ℚ) : Probe :=
  match probe x with
  | .ok r => r
  | .error _ => ⟨false, false⟩

theorem step_congr (p q : ℚ → Probe) (s : BisectState) (h : p ((s.lo + s.hi) / 2) = q ((s.lo + s.hi) / 2)) :
    bisectStep p s = bisectStep q s := by
  unfold bisectStep
  simp only [h]

theorem loopE_total (tol : ℚ) (probe : ℚ → Except PErr Probe) : ∀ (n : Nat) (s s' : BisectState),
    bisectLoopE tol probe n s = .ok s' → s' = bisectLoop tol (total probe) n s := by
  intro n
  induction n with
  | zero => intro s s' h; simp only [bisectLoopE] at h; cases h; rfl
  | succ n ih =>
    intro s s' h
    unfold bisectLoopE at h
    unfold bisectLoop
    cases hp : probe ((s.lo + s.hi) / 2) with
    | error e => rw [hp] at h; cases h
    | ok r =>
      rw [hp] at h
      simp only at h
      have he : bisectStep (fun _ => r) s = bisectStep (total probe) s := by
        apply step_congr
        simp only [total, hp]
      rw [he] at h
      simp only
      split at h
      · rename_i hc
        rw [if_pos hc]
        cases h
        rfl
      · rename_i hc
        rw [if_neg hc]
        exact ih _ _ h

theorem loopE_ok (tol : ℚ) (probe : ℚ → Except PErr Probe) (a b : ℚ)
    (hp : ∀ x, a ≤ x → x ≤ b → ∃ r, probe x = .ok r) : ∀ (n : Nat) (s : BisectState), a ≤ s.lo → s.lo ≤ s.hi →
    s.hi ≤ b → bisectLoopE tol probe n s = .ok (bisectLoop tol (total probe) n s) := by
  intro n
  induction n with
  | zero => intro s _ _ _; rfl
  | succ n ih =>
    intro s h1 h2 h3
    obtain ⟨r, hr⟩ := hp ((s.lo + s.hi) / 2) (by linarith) (by linarith)
    unfold bisectLoopE bisectLoop
    rw [hr]
    have he : bisectStep (fun _ => r) s = bisectStep (total probe) s := by
      apply step_congr
      simp only [total, hr]
    simp only [he]
    split
    · rfl
    · obtain ⟨g1, g2, g3⟩ := step_bounds (total probe) s h2
      exact ih _ (by linarith) g2 (by linarith)

theorem searchE_ok (tol : ℚ) (n : Nat) (b : Boundary) (probe : ℚ → Except PErr Probe) (x : ℚ)
    (h : searchE tol n b probe = .ok x) : search tol n b.min b.max (total probe) = some x := by
  unfold searchE at h
  cases hs : bisectLoopE tol probe n ⟨b.min, b.max, none, []⟩ with
  | error e => rw [hs] at h; cases h
  | ok s =>
    rw [hs] at h
    simp only [Bind.bind, Except.bind] at h
    rw [loopE_total tol probe n _ _ hs] at h
    unfold search bisect
    split at h
    · cases h
    · rename_i y hy
      cases h
      exact hy

theorem searchE_eq (tol : ℚ) (n : Nat) (b : Boundary) (hb : b.min ≤ b.max) (probe : ℚ → Except PErr Probe)
    (hp : ∀ x, b.min ≤ x → x ≤ b.max → ∃ r, probe x = .ok r) :
    searchE tol n b probe = match search tol n b.min b.max (total probe) with
      | none => .error .notConverged
      | some x => .ok x := by
  unfold searchE
  rw [loopE_ok tol probe b.min b.max hp n ⟨b.min, b.max, none, []⟩ (le_refl _) hb (le_refl _)]
  rfl

/-- The ends of the bracket are the ends of the interval or probed points that sent the search the other way. -/
structure Ends (a b : ℚ) (probe : ℚ → Probe) (s : BisectState) : Prop where
  inside : a ≤ s.lo ∧ s.lo < s.hi ∧ s.hi ≤ b
  lo : s.lo = a ∨ (probe s.lo).higher = true
  hi : s.hi = b ∨ (probe s.hi).higher = false

theorem ends_step (a b : ℚ) (probe : ℚ → Probe) (s : BisectState) (h : Ends a b probe s) :
    Ends a b probe (bisectStep probe s) := by
  obtain ⟨⟨h1, h2, h3⟩, h4, h5⟩ := h
  unfold bisectStep
  simp only
  cases hp : (probe ((s.lo + s.hi) / 2)).higher with
  | true => exact ⟨⟨by simp; linarith, by simp; linarith, by simp; linarith⟩, by simp [hp], by simpa using h5⟩
  | false => exact ⟨⟨by simp; linarith, by simp; linarith, by simp; linarith⟩, by simpa using h4, by simp [hp]⟩

theorem ends (tol : ℚ) (n : Nat) (a b : ℚ) (probe : ℚ → Probe) (hab : a < b) :
    Ends a b probe (bisect tol n a b probe) :=
  bisect_ind tol n a b probe (Ends a b probe) (ends_step a b probe)
    ⟨⟨le_refl a, hab, le_refl b⟩, Or.inl rfl, Or.inl rfl⟩

/-- Searching downwards: when everything rejected below an accepted point sends the search up, the result is the upper
end of the bracket. -/
theorem last_hi (tol : ℚ) (n : Nat) (a b : ℚ) (probe : ℚ → Probe) (hab : a < b)
    (hdown : ∀ x, (probe x).accepted = true → (probe x).higher = false)
    (hmono : ∀ x y, a ≤ x → x < y → y ≤ b → (probe y).accepted = true →
      (probe x).accepted = true ∨ (probe x).higher = true) (x : ℚ)
    (h : search tol n a b probe = some x) : x = (bisect tol n a b probe).hi ∧ (probe x).accepted = true := by
  have hI := bisect_ind tol n a b probe (fun s => Ends a b probe s ∧
      ∀ x, s.last = some x → x = s.hi ∧ (probe x).accepted = true) ?_
      ⟨⟨⟨le_refl a, hab, le_refl b⟩, Or.inl rfl, Or.inl rfl⟩, by simp⟩
  · exact hI.2 x h
  · rintro s ⟨he, hl⟩
    refine ⟨ends_step a b probe s he, ?_⟩
    obtain ⟨⟨h1, h2, h3⟩, -, -⟩ := he
    intro x hx
    unfold bisectStep at hx ⊢
    simp only at hx ⊢
    split at hx
    · rename_i ha
      cases hx
      rw [hdown _ ha]
      exact ⟨by simp, ha⟩
    · rename_i ha
      obtain ⟨g1, g2⟩ := hl x hx
      have hm := hmono ((s.lo + s.hi) / 2) s.hi (by linarith) (by linarith) h3 (g1 ▸ g2)
      rcases hm with hm | hm
      · exact absurd hm ha
      · rw [hm]
        exact ⟨by simpa using g1, g2⟩

/-- Searching upwards: when everything rejected above an accepted point sends the search down, the result is the lower
end of the bracket. -/
theorem last_lo (tol : ℚ) (n : Nat) (a b : ℚ) (probe : ℚ → Probe) (hab : a < b)
    (hup : ∀ x, (probe x).accepted = true → (probe x).higher = true)
    (hmono : ∀ x y, a ≤ x → x < y → y ≤ b → (probe x).accepted = true →
      (probe y).accepted = true ∨ (probe y).higher = false) (x : ℚ)
    (h : search tol n a b probe = some x) : x = (bisect tol n a b probe).lo ∧ (probe x).accepted = true := by
  have hI := bisect_ind tol n a b probe (fun s => Ends a b probe s ∧
      ∀ x, s.last = some x → x = s.lo ∧ (probe x).accepted = true) ?_
      ⟨⟨⟨le_refl a, hab, le_refl b⟩, Or.inl rfl, Or.inl rfl⟩, by simp⟩
  · exact hI.2 x h
  · rintro s ⟨he, hl⟩
    refine ⟨ends_step a b probe s he, ?_⟩
    obtain ⟨⟨h1, h2, h3⟩, -, -⟩ := he
    intro x hx
    unfold bisectStep at hx ⊢
    simp only at hx ⊢
    split at hx
    · rename_i ha
      cases hx
      rw [hup _ ha]
      exact ⟨by simp, ha⟩
    · rename_i ha
      obtain ⟨g1, g2⟩ := hl x hx
      have hm := hmono s.lo ((s.lo + s.hi) / 2) h1 (by linarith) (by linarith) (g1 ▸ g2)
      rcases hm with hm | hm
      · exact absurd hm ha
      · rw [hm]
        exact ⟨by simpa using g1, g2⟩

/-- Two searches that disagree only about the direction after an accepted point: the one going down ends at or below
the one going up. -/
theorem down_le_up (tol : ℚ) (down up : ℚ → Probe)
    (hacc : ∀ x, (down x).accepted = (up x).accepted)
    (hdown : ∀ x, (down x).accepted = true → (down x).higher = false)
    (hup : ∀ x, (up x).accepted = true → (up x).higher = true)
    (hrej : ∀ x, (down x).accepted = false → (down x).higher = (up x).higher)
    (n : Nat) (s : BisectState) (hs : s.lo ≤ s.hi) (hl : s.last = none) (x y : ℚ)
    (hx : (bisectLoop tol down n s).last = some x) (hy : (bisectLoop tol up n s).last = some y) : x ≤ y := by
  induction n generalizing s with
  | zero => simp only [bisectLoop] at hx; rw [hl] at hx; cases hx
  | succ n ih =>
    cases ha : (down ((s.lo + s.hi) / 2)).accepted with
    | false =>
      have he : bisectStep down s = bisectStep up s := by
        unfold bisectStep
        simp only [hrej _ ha, ha, ← hacc]
      have hn : (bisectStep up s).last = none := by
        rw [← he]
        unfold bisectStep
        simp only [ha, Bool.false_eq_true, if_false, hl]
      unfold bisectLoop at hx hy
      simp only [he] at hx hy
      split at hx
      · rename_i hc
        rw [if_pos hc] at hy
        rw [hn] at hx; cases hx
      · rename_i hc
        rw [if_neg hc] at hy
        exact ih (bisectStep up s) (step_bounds up s hs).2.1 hn hx hy
    | true =>
      have hua : (up ((s.lo + s.hi) / 2)).accepted = true := by rw [← hacc]; exact ha
      have hd : (fun t : BisectState => t.lo ≤ t.hi ∧ t.hi ≤ (s.lo + s.hi) / 2 ∧
          ∀ z, t.last = some z → z ≤ (s.lo + s.hi) / 2) (bisectLoop tol down (n + 1) s) := by
        have h1 : (bisectStep down s).lo ≤ (bisectStep down s).hi ∧ (bisectStep down s).hi ≤ (s.lo + s.hi) / 2 ∧
            ∀ z, (bisectStep down s).last = some z → z ≤ (s.lo + s.hi) / 2 := by
          refine ⟨(step_bounds down s hs).2.1, ?_, ?_⟩
          · unfold bisectStep; simp only [hdown _ ha, Bool.false_eq_true, if_false]; exact le_refl _
          · intro z hz; unfold bisectStep at hz; simp only [ha, if_true] at hz; cases hz; exact le_refl _
        unfold bisectLoop
        simp only
        split
        · exact h1
        · refine loop_inv tol down (fun t : BisectState => t.lo ≤ t.hi ∧ t.hi ≤ (s.lo + s.hi) / 2 ∧
            ∀ z, t.last = some z → z ≤ (s.lo + s.hi) / 2) ?_ n _ h1
          rintro t ⟨t1, t2, t3⟩
          have hb := step_bounds down t t1
          refine ⟨hb.2.1, by linarith, ?_⟩
          intro z hz
          unfold bisectStep at hz
          simp only at hz
          split at hz
          · cases hz; linarith
          · exact t3 z hz
      have hu : (fun t : BisectState => t.lo ≤ t.hi ∧ (s.lo + s.hi) / 2 ≤ t.lo ∧
          ∀ z, t.last = some z → (s.lo + s.hi) / 2 ≤ z) (bisectLoop tol up (n + 1) s) := by
        have h1 : (bisectStep up s).lo ≤ (bisectStep up s).hi ∧ (s.lo + s.hi) / 2 ≤ (bisectStep up s).lo ∧
            ∀ z, (bisectStep up s).last = some z → (s.lo + s.hi) / 2 ≤ z := by
          refine ⟨(step_bounds up s hs).2.1, ?_, ?_⟩
          · unfold bisectStep; simp only [hup _ hua, if_true]; exact le_refl _
          · intro z hz; unfold bisectStep at hz; simp only [hua, if_true] at hz; cases hz; exact le_refl _
        unfold bisectLoop
        simp only
        split
        · exact h1
        · refine loop_inv tol up (fun t : BisectState => t.lo ≤ t.hi ∧ (s.lo + s.hi) / 2 ≤ t.lo ∧
            ∀ z, t.last = some z → (s.lo + s.hi) / 2 ≤ z) ?_ n _ h1
          rintro t ⟨t1, t2, t3⟩
          have hb := step_bounds up t t1
          refine ⟨hb.2.1, by linarith, ?_⟩
          intro z hz
          unfold bisectStep at hz
          simp only at hz
          split at hz
          · cases hz; linarith
          · exact t3 z hz
      exact le_trans (hd.2.2 x hx) (hu.2.2 y hy)

/-- A search that finds nothing leaves a bracket around everything acceptable. -/
theorem none_bracket (tol : ℚ) (n : Nat) (a b : ℚ) (probe : ℚ → Probe) (hab : a < b) (u v : ℚ) (hu : a ≤ u)
    (huv : u ≤ v) (hv : v ≤ b)
    (hup : ∀ x, a ≤ x → x ≤ b → (probe x).higher = true → (probe x).accepted = false → x < u)
    (hdown : ∀ x, a ≤ x → x ≤ b → (probe x).higher = false → (probe x).accepted = false → v < x)
    (h : search tol n a b probe = none) :
    (bisect tol n a b probe).lo ≤ u ∧ v ≤ (bisect tol n a b probe).hi := by
  have hI := bisect_ind tol n a b probe (fun s => Ends a b probe s ∧ (s.last = none → s.lo ≤ u ∧ v ≤ s.hi)) ?_
      ⟨⟨⟨le_refl a, hab, le_refl b⟩, Or.inl rfl, Or.inl rfl⟩, fun _ => ⟨hu, hv⟩⟩
  · exact hI.2 h
  · rintro s ⟨he, hl⟩
    refine ⟨ends_step a b probe s he, ?_⟩
    obtain ⟨⟨h1, h2, h3⟩, -, -⟩ := he
    unfold bisectStep
    simp only
    intro hn
    split at hn
    · cases hn
    · rename_i ha
      rw [Bool.not_eq_true] at ha
      obtain ⟨g1, g2⟩ := hl hn
      cases hp : (probe ((s.lo + s.hi) / 2)).higher with
      | true => exact ⟨by simpa using le_of_lt (hup _ (by linarith) (by linarith) hp ha), by simpa using g2⟩
      | false => exact ⟨by simpa using g1, by simpa using le_of_lt (hdown _ (by linarith) (by linarith) hp ha)⟩

end Verif.BisectE
