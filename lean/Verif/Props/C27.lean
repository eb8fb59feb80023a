import Verif.Model.Search
import Mathlib.Algebra.Order.Field.Basic
import Mathlib.Tactic.Linarith
import Mathlib.Tactic.Ring
import Mathlib.Tactic.FieldSimp

/-!
# C27: bisection searches return an accepted point and bracket the boundary
-/

namespace Verif.C27
open Verif.Time Verif.Search

/-! ## Specification -/

/-- Once true on `[a, b]`, true from there on. -/
def UpTo (p : ℚ → Bool) (a b : ℚ) : Prop := ∀ x y, a ≤ x → x ≤ y → y ≤ b → p x = true → p y = true

/-- Once false on `[a, b]`, false from there on. -/
def DownTo (p : ℚ → Bool) (a b : ℚ) : Prop := ∀ x y, a ≤ x → x ≤ y → y ≤ b → p y = true → p x = true

/-- Two points are as close as the search promises: within the relative tolerance, or the original width halved as
many times as iterations are allowed. -/
def Close (tol : ℚ) (maxIter : Nat) (width lo hi : ℚ) : Prop :=
  hi - lo < tol * max (max |lo| |hi|) 1 ∨ hi - lo = width / 2 ^ maxIter

/-! ## Lemmas -/

theorem loop_inv (tol : ℚ) (probe : ℚ → Probe) (I : BisectState → Prop) (hstep : ∀ s, I s → I (bisectStep probe s)) :
    ∀ (n : Nat) (s : BisectState), I s → I (bisectLoop tol probe n s) := by
  intro n
  induction n with
  | zero => intro s h; exact h
  | succ n ih =>
    intro s h
    unfold bisectLoop
    simp only
    split
    · exact hstep s h
    · exact ih _ (hstep s h)

theorem bisect_ind (tol : ℚ) (n : Nat) (a b : ℚ) (probe : ℚ → Probe) (I : BisectState → Prop)
    (hstep : ∀ s, I s → I (bisectStep probe s)) (h0 : I ⟨a, b, none, []⟩) : I (bisect tol n a b probe) :=
  loop_inv tol probe I hstep n _ h0

theorem step_width (probe : ℚ → Probe) (s : BisectState) :
    (bisectStep probe s).hi - (bisectStep probe s).lo = (s.hi - s.lo) / 2 := by
  unfold bisectStep
  simp only
  split <;> ring

theorem step_bounds (probe : ℚ → Probe) (s : BisectState) (h : s.lo ≤ s.hi) :
    s.lo ≤ (bisectStep probe s).lo ∧ (bisectStep probe s).lo ≤ (bisectStep probe s).hi ∧
      (bisectStep probe s).hi ≤ s.hi := by
  unfold bisectStep
  simp only
  split <;> refine ⟨?_, ?_, ?_⟩ <;> linarith

theorem loop_close (tol : ℚ) (probe : ℚ → Probe) : ∀ (n : Nat) (s : BisectState),
    Close tol n (s.hi - s.lo) (bisectLoop tol probe n s).lo (bisectLoop tol probe n s).hi := by
  intro n
  induction n with
  | zero => intro s; right; simp [bisectLoop]
  | succ n ih =>
    intro s
    unfold bisectLoop
    simp only
    split
    · rename_i h
      left
      unfold relDiff at h
      have hp : (0 : ℚ) < max (max |(bisectStep probe s).lo| |(bisectStep probe s).hi|) 1 :=
        lt_of_lt_of_le one_pos (le_max_right _ _)
      exact (div_lt_iff₀ hp).mp h
    · rcases ih (bisectStep probe s) with h | h
      · exact Or.inl h
      · right
        rw [h, step_width]
        field_simp
        ring

theorem loop_probes (tol : ℚ) (probe : ℚ → Probe) : ∀ (n : Nat) (s : BisectState),
    (bisectLoop tol probe n s).probes.length ≤ s.probes.length + n := by
  intro n
  induction n with
  | zero => intro s; simp [bisectLoop]
  | succ n ih =>
    intro s
    unfold bisectLoop
    simp only
    have hl : (bisectStep probe s).probes.length = s.probes.length + 1 := rfl
    split
    · omega
    · have := ih (bisectStep probe s)
      omega

/-- What holds in every state of a bisection: the bracket is inside the interval, all probes are inside the interval,
the last accepted probe is an accepted probe, and without one all probes were rejected. -/
structure Inv (a b : ℚ) (probe : ℚ → Probe) (s : BisectState) : Prop where
  lo : a ≤ s.lo
  mid : s.lo ≤ s.hi
  hi : s.hi ≤ b
  inside : ∀ x ∈ s.probes, a ≤ x ∧ x ≤ b
  accepted : ∀ x, s.last = some x → x ∈ s.probes ∧ (probe x).accepted = true
  rejected : s.last = none → ∀ x ∈ s.probes, (probe x).accepted = false

theorem inv_step (a b : ℚ) (probe : ℚ → Probe) (s : BisectState) (h : Inv a b probe s) :
    Inv a b probe (bisectStep probe s) := by
  obtain ⟨h1, h2, h3⟩ := step_bounds probe s h.mid
  have hlo := h.lo
  have hmid := h.mid
  have hhi := h.hi
  have hp : (bisectStep probe s).probes = (s.lo + s.hi) / 2 :: s.probes := rfl
  have hl : (bisectStep probe s).last =
      if (probe ((s.lo + s.hi) / 2)).accepted then some ((s.lo + s.hi) / 2) else s.last := rfl
  refine ⟨by linarith, h2, by linarith, ?_, ?_, ?_⟩
  · intro x hx
    rw [hp] at hx
    rcases List.mem_cons.mp hx with rfl | hx
    · constructor <;> linarith
    · exact h.inside x hx
  · intro x hx
    rw [hl] at hx
    rw [hp]
    split at hx
    · rename_i ha
      cases hx
      exact ⟨by simp, ha⟩
    · obtain ⟨g1, g2⟩ := h.accepted x hx
      exact ⟨List.mem_cons_of_mem _ g1, g2⟩
  · intro hx x hm
    rw [hl] at hx
    split at hx
    · cases hx
    · rename_i ha
      rw [hp] at hm
      rcases List.mem_cons.mp hm with rfl | hm
      · simpa using ha
      · exact h.rejected hx x hm

theorem bisect_inv (tol : ℚ) (n : Nat) (a b : ℚ) (probe : ℚ → Probe) (hab : a ≤ b) :
    Inv a b probe (bisect tol n a b probe) := by
  apply loop_inv tol probe (Inv a b probe) (inv_step a b probe)
  exact ⟨le_refl a, hab, le_refl b, by simp, by simp, by simp⟩

/-! ## `search` -/

/-- **Search: result.** For any probe function: a result is a point of the interval that was accepted; without a
result every probed point was rejected; at most `max_iterations` points are probed, all in the interval. -/
theorem C27_search (tol : ℚ) (n : Nat) (a b : ℚ) (func : ℚ → Probe) (hab : a ≤ b) :
    (∀ x, search tol n a b func = some x → a ≤ x ∧ x ≤ b ∧ (func x).accepted = true) ∧
    (search tol n a b func = none → ∀ x ∈ (bisect tol n a b func).probes, (func x).accepted = false) ∧
    (bisect tol n a b func).probes.length ≤ n ∧ (∀ x ∈ (bisect tol n a b func).probes, a ≤ x ∧ x ≤ b) := by
  have h := bisect_inv tol n a b func hab
  refine ⟨?_, h.rejected, ?_, h.inside⟩
  · intro x hx
    obtain ⟨h1, h2⟩ := h.accepted x hx
    obtain ⟨h3, h4⟩ := h.inside x h1
    exact ⟨h3, h4, h2⟩
  · have := loop_probes tol func n ⟨a, b, none, []⟩
    simpa [bisect] using this

/-- **Search: threshold.** For an indicator that is true up to a threshold, the result is within the tolerance of
the end of the interval or of a point where the indicator is false. When there is no result, the indicator is false
beyond the tolerance from the start of the interval. -/
theorem C27_search_threshold (tol : ℚ) (n : Nat) (a b : ℚ) (f : ℚ → Bool) (hab : a ≤ b) :
    ∃ lo hi, a ≤ lo ∧ lo ≤ hi ∧ hi ≤ b ∧ Close tol n (b - a) lo hi ∧ (hi = b ∨ f hi = false) ∧
      (∀ x, search tol n a b (fun x => ⟨f x, f x⟩) = some x → x = lo ∧ f x = true) ∧
      (search tol n a b (fun x => ⟨f x, f x⟩) = none → lo = a) := by
  have h := bisect_inv tol n a b (fun x => (⟨f x, f x⟩ : Probe)) hab
  have hb : (fun s : BisectState => (s.hi = b ∨ f s.hi = false) ∧ (∀ x, s.last = some x → x = s.lo ∧ f x = true) ∧
      (s.last = none → s.lo = a)) (bisect tol n a b (fun x => ⟨f x, f x⟩)) := by
    refine bisect_ind tol n a b (fun x => (⟨f x, f x⟩ : Probe))
        (fun s => (s.hi = b ∨ f s.hi = false) ∧ (∀ x, s.last = some x → x = s.lo ∧ f x = true) ∧
        (s.last = none → s.lo = a)) ?_ ?_
    · intro s hs
      obtain ⟨s1, s2, s3⟩ := hs
      unfold bisectStep
      simp only
      by_cases hf : f ((s.lo + s.hi) / 2) = true
      · simp [s1, hf]
      · rw [Bool.not_eq_true] at hf
        simp [hf]
        exact ⟨s2, s3⟩
    · simp
  exact ⟨_, _, h.lo, h.mid, h.hi, loop_close tol _ n ⟨a, b, none, []⟩, hb.1, hb.2.1, hb.2.2⟩

/-- **Finding.** The lower end itself is never tried: an indicator that is true there, but false at every probe, ends
in DidNotConvergeError. -/
theorem C27_search_misses_start : search (1 / 100000) 20 0 100 (fun x => ⟨decide (x ≤ 0), decide (x ≤ 0)⟩) = none := by
  decide +kernel

/-! ## `lowest_true` and `highest_true` -/

/-- **Lowest true, result.** For any predicate: the result is a point of the interval where the predicate is true;
there is no result exactly when it is false at both ends. -/
theorem C27_lowest (tol : ℚ) (n : Nat) (a b : ℚ) (p : ℚ → Bool) (hab : a ≤ b) :
    (∀ x, lowestTrue tol n a b p = some x → a ≤ x ∧ x ≤ b ∧ p x = true) ∧
    (lowestTrue tol n a b p = none ↔ p a = false ∧ p b = false) ∧
    (p a = true → lowestTrue tol n a b p = some a) ∧
    (p a = false → p b = true → ∃ lo x, lowestTrue tol n a b p = some x ∧ a ≤ lo ∧ lo < x ∧ x ≤ b ∧
      p lo = false ∧ p x = true ∧ Close tol n (b - a) lo x) := by
  have main : p a = false → p b = true → ∃ lo x, lowestTrue tol n a b p = some x ∧ a ≤ lo ∧ lo < x ∧ x ≤ b ∧
      p lo = false ∧ p x = true ∧ Close tol n (b - a) lo x := by
    intro ha hb
    have h := bisect_inv tol n a b (fun x => (⟨p x != true, p x⟩ : Probe)) hab
    have hI : (fun s : BisectState => p s.lo = false ∧ p s.hi = true ∧ s.hi = s.last.getD b)
        (bisect tol n a b (fun x => ⟨p x != true, p x⟩)) := by
      refine bisect_ind tol n a b (fun x => (⟨p x != true, p x⟩ : Probe))
        (fun s => p s.lo = false ∧ p s.hi = true ∧ s.hi = s.last.getD b) ?_ ?_
      · intro s hs
        obtain ⟨s1, s2, s3⟩ := hs
        unfold bisectStep
        simp only
        by_cases hf : p ((s.lo + s.hi) / 2) = true
        · simp [hf, s1]
        · rw [Bool.not_eq_true] at hf
          simp [hf, s2]
          exact s3
      · simp [ha, hb]
    have hres : lowestTrue tol n a b p = some (bisect tol n a b (fun x => ⟨p x != true, p x⟩)).hi := by
      unfold lowestTrue firstTrue
      simp only [if_true, ha, hb, Bool.false_eq_true, if_false, Bool.not_true]
      rw [hI.2.2]
      generalize (bisect tol n a b (fun x => ⟨p x != true, p x⟩)).last = l
      cases l <;> rfl
    have hne : (bisect tol n a b (fun x => ⟨p x != true, p x⟩)).lo ≠
        (bisect tol n a b (fun x => ⟨p x != true, p x⟩)).hi := by
      intro he
      have h1 := hI.1
      rw [he, hI.2.1] at h1
      cases h1
    exact ⟨_, _, hres, h.lo, lt_of_le_of_ne h.mid hne, h.hi, hI.1, hI.2.1,
      loop_close tol (fun x => (⟨p x != true, p x⟩ : Probe)) n ⟨a, b, none, []⟩⟩
  have hat : p a = true → lowestTrue tol n a b p = some a := by
    intro ha
    unfold lowestTrue firstTrue
    simp [ha]
  have hnone : p a = false → p b = false → lowestTrue tol n a b p = none := by
    intro ha hb
    unfold lowestTrue firstTrue
    simp [ha, hb]
  refine ⟨?_, ?_, hat, main⟩
  · intro x hx
    cases ha : p a with
    | true =>
      rw [hat ha] at hx
      cases hx
      exact ⟨le_refl a, hab, ha⟩
    | false =>
      cases hb : p b with
      | false => rw [hnone ha hb] at hx; cases hx
      | true =>
        obtain ⟨lo, x', h1, h2, h3, h4, _, h6, _⟩ := main ha hb
        rw [h1] at hx
        cases hx
        exact ⟨by linarith, h4, h6⟩
  · constructor
    · intro h
      cases ha : p a with
      | true => rw [hat ha] at h; cases h
      | false =>
        cases hb : p b with
        | false => exact ⟨rfl, rfl⟩
        | true =>
          obtain ⟨_, _, h1, _⟩ := main ha hb
          rw [h1] at h
          cases h
    · rintro ⟨ha, hb⟩; exact hnone ha hb

/-- **Lowest true, monotone.** For a predicate that stays true: no result means true nowhere; otherwise every point
of the interval where it is true lies above a point within the tolerance below the result. -/
theorem C27_lowest_monotone (tol : ℚ) (n : Nat) (a b : ℚ) (p : ℚ → Bool) (hab : a ≤ b) (hp : UpTo p a b) :
    (lowestTrue tol n a b p = none → ∀ x, a ≤ x → x ≤ b → p x = false) ∧
    (∀ r, lowestTrue tol n a b p = some r → ∃ lo, (∀ x, a ≤ x → x ≤ b → p x = true → lo ≤ x) ∧
      (lo = r ∨ Close tol n (b - a) lo r)) := by
  obtain ⟨_, h2, h3, h4⟩ := C27_lowest tol n a b p hab
  constructor
  · intro h x hx1 hx2
    by_contra hc
    have := hp x b hx1 hx2 (le_refl b) (by simpa using hc)
    rw [(h2.mp h).2] at this
    cases this
  · intro r hr
    cases ha : p a with
    | true =>
      rw [h3 ha] at hr
      cases hr
      exact ⟨a, fun x hx _ _ => hx, Or.inl rfl⟩
    | false =>
      cases hb : p b with
      | false => rw [h2.mpr ⟨ha, hb⟩] at hr; cases hr
      | true =>
        obtain ⟨lo, x, g1, g2, g3, g4, g5, g6, g7⟩ := h4 ha hb
        rw [g1] at hr
        cases hr
        refine ⟨lo, ?_, Or.inr g7⟩
        intro y hy1 hy2 hy3
        by_contra hlt
        have := hp y lo hy1 (by linarith) (by linarith) hy3
        rw [g5] at this
        cases this

/-- **Highest true, result.** -/
theorem C27_highest (tol : ℚ) (n : Nat) (a b : ℚ) (p : ℚ → Bool) (hab : a ≤ b) :
    (∀ x, highestTrue tol n a b p = some x → a ≤ x ∧ x ≤ b ∧ p x = true) ∧
    (highestTrue tol n a b p = none ↔ p a = false ∧ p b = false) ∧
    (p b = true → highestTrue tol n a b p = some b) ∧
    (p b = false → p a = true → ∃ x hi, highestTrue tol n a b p = some x ∧ a ≤ x ∧ x < hi ∧ hi ≤ b ∧
      p hi = false ∧ p x = true ∧ Close tol n (b - a) x hi) := by
  have main : p b = false → p a = true → ∃ x hi, highestTrue tol n a b p = some x ∧ a ≤ x ∧ x < hi ∧ hi ≤ b ∧
      p hi = false ∧ p x = true ∧ Close tol n (b - a) x hi := by
    intro hb ha
    have h := bisect_inv tol n a b (fun x => (⟨p x != false, p x⟩ : Probe)) hab
    have hI : (fun s : BisectState => p s.lo = true ∧ p s.hi = false ∧ s.lo = s.last.getD a)
        (bisect tol n a b (fun x => ⟨p x != false, p x⟩)) := by
      refine bisect_ind tol n a b (fun x => (⟨p x != false, p x⟩ : Probe))
        (fun s => p s.lo = true ∧ p s.hi = false ∧ s.lo = s.last.getD a) ?_ ?_
      · intro s hs
        obtain ⟨s1, s2, s3⟩ := hs
        unfold bisectStep
        simp only
        by_cases hf : p ((s.lo + s.hi) / 2) = true
        · simp [hf, s2]
        · rw [Bool.not_eq_true] at hf
          simp [hf, s1]
          exact s3
      · simp [ha, hb]
    have hres : highestTrue tol n a b p = some (bisect tol n a b (fun x => ⟨p x != false, p x⟩)).lo := by
      unfold highestTrue firstTrue
      simp only [ha, hb, Bool.false_eq_true, if_false, Bool.not_true]
      rw [hI.2.2]
      generalize (bisect tol n a b (fun x => ⟨p x != false, p x⟩)).last = l
      cases l <;> rfl
    have hne : (bisect tol n a b (fun x => ⟨p x != false, p x⟩)).lo ≠
        (bisect tol n a b (fun x => ⟨p x != false, p x⟩)).hi := by
      intro he
      have h1 := hI.1
      rw [he, hI.2.1] at h1
      cases h1
    exact ⟨_, _, hres, h.lo, lt_of_le_of_ne h.mid hne, h.hi, hI.2.1, hI.1,
      loop_close tol (fun x => (⟨p x != false, p x⟩ : Probe)) n ⟨a, b, none, []⟩⟩
  have hat : p b = true → highestTrue tol n a b p = some b := by
    intro ha
    unfold highestTrue firstTrue
    simp [ha]
  have hnone : p a = false → p b = false → highestTrue tol n a b p = none := by
    intro ha hb
    unfold highestTrue firstTrue
    simp [ha, hb]
  refine ⟨?_, ?_, hat, main⟩
  · intro x hx
    cases hb : p b with
    | true =>
      rw [hat hb] at hx
      cases hx
      exact ⟨hab, le_refl b, hb⟩
    | false =>
      cases ha : p a with
      | false => rw [hnone ha hb] at hx; cases hx
      | true =>
        obtain ⟨x', hi, h1, h2, h3, h4, _, h6, _⟩ := main hb ha
        rw [h1] at hx
        cases hx
        exact ⟨h2, by linarith, h6⟩
  · constructor
    · intro h
      cases hb : p b with
      | true => rw [hat hb] at h; cases h
      | false =>
        cases ha : p a with
        | false => exact ⟨rfl, rfl⟩
        | true =>
          obtain ⟨_, _, h1, _⟩ := main hb ha
          rw [h1] at h
          cases h
    · rintro ⟨ha, hb⟩; exact hnone ha hb

/-- **Highest true, monotone.** -/
theorem C27_highest_monotone (tol : ℚ) (n : Nat) (a b : ℚ) (p : ℚ → Bool) (hab : a ≤ b) (hp : DownTo p a b) :
    (highestTrue tol n a b p = none → ∀ x, a ≤ x → x ≤ b → p x = false) ∧
    (∀ r, highestTrue tol n a b p = some r → ∃ hi, (∀ x, a ≤ x → x ≤ b → p x = true → x ≤ hi) ∧
      (hi = r ∨ Close tol n (b - a) r hi)) := by
  obtain ⟨_, h2, h3, h4⟩ := C27_highest tol n a b p hab
  constructor
  · intro h x hx1 hx2
    by_contra hc
    have := hp a x (le_refl a) hx1 hx2 (by simpa using hc)
    rw [(h2.mp h).1] at this
    cases this
  · intro r hr
    cases hb : p b with
    | true =>
      rw [h3 hb] at hr
      cases hr
      exact ⟨b, fun x _ hx _ => hx, Or.inl rfl⟩
    | false =>
      cases ha : p a with
      | false => rw [h2.mpr ⟨ha, hb⟩] at hr; cases hr
      | true =>
        obtain ⟨x, hi, g1, g2, g3, g4, g5, g6, g7⟩ := h4 hb ha
        rw [g1] at hr
        cases hr
        refine ⟨hi, ?_, Or.inr g7⟩
        intro y hy1 hy2 hy3
        by_contra hlt
        have := hp hi y (by linarith) (by linarith) hy2 hy3
        rw [g5] at this
        cases this

/-! ## `maximize_x_given_boolean_condition_function` -/

theorem maximize_inv (tol : ℚ) (f : ℚ → Bool) (a b : ℚ) : ∀ (n : Nat) (rel x0 x1 : ℚ), a ≤ x0 → x0 ≤ x1 → x1 ≤ b →
    (x0 = a ∨ f x0 = true) → (x1 = b ∨ f x1 = false) →
    a ≤ (maximizeLoop tol f n rel x0 x1).1 ∧
    (maximizeLoop tol f n rel x0 x1).1 ≤ (maximizeLoop tol f n rel x0 x1).2 ∧
    (maximizeLoop tol f n rel x0 x1).2 ≤ b ∧
    ((maximizeLoop tol f n rel x0 x1).1 = a ∨ f (maximizeLoop tol f n rel x0 x1).1 = true) ∧
    ((maximizeLoop tol f n rel x0 x1).2 = b ∨ f (maximizeLoop tol f n rel x0 x1).2 = false) := by
  intro n
  induction n with
  | zero => intro rel x0 x1 h1 h2 h3 h4 h5; exact ⟨h1, h2, h3, h4, h5⟩
  | succ n ih =>
    intro rel x0 x1 h1 h2 h3 h4 h5
    unfold maximizeLoop
    split
    · simp only
      split
      · rename_i hf
        exact ih _ _ _ (by linarith) (by linarith) h3 (Or.inr hf) h5
      · rename_i hf
        exact ih _ _ _ h1 (by linarith) (by linarith) h4 (Or.inr (by simpa using hf))
    · exact ⟨h1, h2, h3, h4, h5⟩

theorem maximize_close (tol : ℚ) (f : ℚ → Bool) (ht : 0 ≤ tol) : ∀ (n : Nat) (rel x0 x1 : ℚ), x0 ≤ x1 →
    (|rel| ≤ tol → x1 - x0 ≤ tol * max |x0| |x1|) →
    (maximizeLoop tol f n rel x0 x1).2 - (maximizeLoop tol f n rel x0 x1).1 ≤
        tol * max |(maximizeLoop tol f n rel x0 x1).1| |(maximizeLoop tol f n rel x0 x1).2| ∨
      (maximizeLoop tol f n rel x0 x1).2 - (maximizeLoop tol f n rel x0 x1).1 = (x1 - x0) / 2 ^ n := by
  intro n
  induction n with
  | zero => intro rel x0 x1 _ _; right; simp [maximizeLoop]
  | succ n ih =>
    intro rel x0 x1 h2 hrel
    unfold maximizeLoop
    split
    · simp only
      have key : ∀ y0 y1 : ℚ, y0 ≤ y1 → |relDiff' y0 y1| ≤ tol → y1 - y0 ≤ tol * max |y0| |y1| := by
        intro y0 y1 hy hr
        unfold relDiff' at hr
        split at hr
        · rename_i he
          rw [he, sub_self]
          exact mul_nonneg ht (le_trans (abs_nonneg y1) (le_max_right _ _))
        · rename_i hne
          have hpos : 0 < max |y0| |y1| := by
            by_contra hc
            have h0 : |y0| ≤ 0 := le_trans (le_max_left _ _) (not_lt.mp hc)
            have h1 : |y1| ≤ 0 := le_trans (le_max_right _ _) (not_lt.mp hc)
            exact hne (by rw [abs_nonpos_iff.mp h0, abs_nonpos_iff.mp h1])
          rw [abs_div, abs_abs, abs_of_pos hpos, div_le_iff₀ hpos, abs_of_nonneg (by linarith)] at hr
          exact hr
      have e : ∀ w v : ℚ, w = v / 2 → w / 2 ^ n = v / 2 ^ (n + 1) := by
        intro w v h
        rw [h, pow_succ]
        field_simp
      split
      · rcases ih (relDiff' ((x0 + x1) / 2) x1) ((x0 + x1) / 2) x1 (by linarith) (key _ _ (by linarith)) with h | h
        · exact Or.inl h
        · right
          rw [h]
          exact e _ _ (by ring)
      · rcases ih (relDiff' x0 ((x0 + x1) / 2)) x0 ((x0 + x1) / 2) (by linarith) (key _ _ (by linarith)) with h | h
        · exact Or.inl h
        · right
          rw [h]
          exact e _ _ (by ring)
    · rename_i h
      exact Or.inl (hrel (not_lt.mp h))

/-- **Boolean maximisation.** The result is a point of the interval which is the lower end or a point where the
condition was true; just above it (within the tolerance) is the upper end or a point where it is false. -/
theorem C27_maximize (tol : ℚ) (n : Nat) (a b : ℚ) (f : ℚ → Bool) (hab : a ≤ b) (h0 : 0 ≤ tol) (h100 : tol < 100) :
    ∃ hi, a ≤ maximizeX tol n a b f ∧ maximizeX tol n a b f ≤ hi ∧ hi ≤ b ∧
      (maximizeX tol n a b f = a ∨ f (maximizeX tol n a b f) = true) ∧ (hi = b ∨ f hi = false) ∧
      (hi - maximizeX tol n a b f ≤ tol * max |maximizeX tol n a b f| |hi| ∨
        hi - maximizeX tol n a b f = (b - a) / 2 ^ (n + 1)) := by
  obtain ⟨h1, h2, h3, h4, h5⟩ := maximize_inv tol f a b (n + 1) 100 a b (le_refl a) hab (le_refl b) (Or.inl rfl)
    (Or.inl rfl)
  have h6 := maximize_close tol f h0 (n + 1) 100 a b hab (by
    intro h
    rw [abs_of_pos (by norm_num)] at h
    linarith)
  exact ⟨_, h1, h2, h3, h4, h5, h6⟩

/-- **Finding.** The lower end is returned untested: with a condition true nowhere the function returns `x_min`. -/
theorem C27_maximize_untested (tol : ℚ) (n : Nat) (a b : ℚ) : maximizeX tol n a b (fun _ => false) = a := by
  have : ∀ (m : Nat) (rel x1 : ℚ), (maximizeLoop tol (fun _ => false) m rel a x1).1 = a := by
    intro m
    induction m with
    | zero => intro rel x1; rfl
    | succ m ih =>
      intro rel x1
      unfold maximizeLoop
      split
      · simp only [Bool.false_eq_true, if_false]
        exact ih _ _
      · rfl
  exact this _ _ _

/-! ## Examples -/

example : lowestTrue (1 / 100) 20 0 8 (fun x => decide (3 ≤ x)) = some 3 := by decide +kernel

example : highestTrue (1 / 100) 20 0 8 (fun x => decide (x ≤ 3)) = some 3 := by decide +kernel

example : UpTo (fun x => decide (3 ≤ x)) 0 8 := by
  intro x y _ h _ hx
  simp only [decide_eq_true_eq] at *
  linarith

example : DownTo (fun x => decide (x ≤ 3)) 0 8 := by
  intro x y _ h _ hx
  simp only [decide_eq_true_eq] at *
  linarith

example : maximizeX (1 / 100) 50 0 8 (fun x => decide (x ≤ 5)) = 5 := by decide +kernel

end Verif.C27
