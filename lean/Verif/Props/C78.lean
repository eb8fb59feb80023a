import Verif.Model.Feasibility
import Verif.Props.C27
import Verif.Props.C77
import Mathlib.Tactic.Linarith
import Mathlib.Tactic.Ring
import Mathlib.Tactic.NormNum
import Mathlib.Tactic.FieldSimp
import Mathlib.Tactic.Positivity

/-!
C78: the excess rate reported for a train is what the train cannot handle.
-/

namespace Verif.C78

open Verif.Time Verif.Process Verif.Section Verif.Solver Verif.Feasibility
open Verif.C73 (Closed handlers)
open Verif.C27 (Close)

variable {κ : Type} [DecidableEq κ]

/-! ## Specification -/

/-- A newly built solver of the train solves the target pressure for this inlet. -/
def Handles (env : Env κ) (it : Item κ) (s : Stream) : Prop :=
  ∃ sol, (findSolution env it.sec it.value it.tol s fun _ => 0).1 = .ok sol ∧ sol.failure = none

/-- A newly built solver of the train reports a failure for this inlet. -/
def Refuses (env : Env κ) (it : Item κ) (s : Stream) : Prop :=
  ∃ sol, (findSolution env it.sec it.value it.tol s fun _ => 0).1 = .ok sol ∧ sol.failure ≠ none

/-- The same fluid with another standard rate. -/
def atRate (s : Stream) (rate : ℚ) : Stream := { s with mass := rate * s.props.stdDensity / 24 }

/-- A stream as the code can hold it. -/
def Valid (s : Stream) : Prop := 0 < s.props.stdDensity ∧ 0 ≤ s.mass

theorem not_both {env : Env κ} {it : Item κ} {s : Stream} (h : Handles env it s) : ¬ Refuses env it s := by
  rintro ⟨sol, h1, h2⟩
  obtain ⟨sol', h3, h4⟩ := h
  rw [h1, Except.ok.injEq] at h3
  subst h3
  exact h2 h4

/-! ## Lemmas -/

theorem atRate_std (s : Stream) (h : 0 < s.props.stdDensity) (r : ℚ) : (atRate s r).stdRate = r := by
  unfold atRate Stream.stdRate
  have := h.ne'
  field_simp

theorem atRate_self (s : Stream) (h : 0 < s.props.stdDensity) : atRate s s.stdRate = s := by
  unfold atRate Stream.stdRate
  have hh := h.ne'
  have : s.mass / s.props.stdDensity * 24 * s.props.stdDensity / 24 = s.mass := by field_simp
  rw [this]

theorem withStd_ok (s : Stream) (h : 0 < s.props.stdDensity) {r : ℚ} (hr : 0 ≤ r) :
    s.withStdRate r = .ok (atRate s r) := by
  have h0 : ¬ r * s.props.stdDensity / 24 < 0 := not_lt.2 (by positivity)
  show (if r * s.props.stdDensity / 24 < 0 then Except.error PErr.negativeMass
    else .ok (Stream.mk s.model s.props (r * s.props.stdDensity / 24))) = _
  rw [if_neg h0]
  rfl

/-- The answer of a fresh solver. -/
def answer (env : Env κ) (it : Item κ) (s : Stream) : Except PErr Bool := (it.isFeasible env s fun _ => 0).1

theorem answer_true {env : Env κ} {it : Item κ} {s : Stream} : answer env it s = .ok true ↔ Handles env it s := by
  unfold answer Item.isFeasible Handles
  generalize findSolution env it.sec it.value it.tol s (fun _ => 0) = a
  obtain ⟨a1, a2⟩ := a
  cases a1 with
  | error e => simp
  | ok sol => simp [Solution.success]

theorem answer_false {env : Env κ} {it : Item κ} {s : Stream} : answer env it s = .ok false ↔ Refuses env it s := by
  unfold answer Item.isFeasible Refuses
  generalize findSolution env it.sec it.value it.tol s (fun _ => 0) = a
  obtain ⟨a1, a2⟩ := a
  cases a1 with
  | error e => simp
  | ok sol =>
    simp only [Except.ok.injEq, Solution.success]
    constructor
    · intro h; exact ⟨sol, rfl, by intro h'; rw [h'] at h; cases h⟩
    · rintro ⟨sol', rfl, h⟩
      cases hf : sol.failure with
      | none => exact absurd hf h
      | some _ => rfl

theorem feasible_fresh {it : Item κ} (hc : Closed it.sec) (env : Env κ) (s : Stream) (st : Settings κ) :
    (it.isFeasible env s st).1 = answer env it s := by
  have h := C73.C73_fresh hc env env.remains env.remains it.value it.tol s st (fun _ => 0)
  have he : C73.withRemains env env.remains = env := rfl
  rw [he] at h
  unfold answer Item.isFeasible
  generalize findSolution env it.sec it.value it.tol s st = a at h ⊢
  generalize findSolution env it.sec it.value it.tol s (fun _ => 0) = b at h ⊢
  obtain ⟨a1, a2⟩ := a
  obtain ⟨b1, b2⟩ := b
  dsimp only at h
  subst h
  cases a1 <;> rfl

theorem higher_fresh {it : Item κ} (hc : Closed it.sec) (env : Env κ) (s : Stream) (hs : 0 < s.props.stdDensity) {r : ℚ}
    (hr : 0 ≤ r) (st : Settings κ) : (it.higher env s r st).1 = answer env it (atRate s r) := by
  unfold Item.higher
  rw [withStd_ok s hs hr]
  exact feasible_fresh hc env _ st

omit [DecidableEq κ] in
/-- The search for a function whose results do not depend on the settings. -/
theorem loop_spec (tol : ℚ) (func : ℚ → Settings κ → Except PErr Bool × Settings κ) (f : ℚ → Except PErr Bool) :
    ∀ (n : Nat) (lo hi : ℚ), lo ≤ hi → (∀ x, lo ≤ x → x ≤ hi → ∀ st, (func x st).1 = f x) →
      ∀ (last : Option ℚ) (st st' : Settings κ) (r : Option ℚ), searchLoop tol func n lo hi last st = (.ok r, st') →
      ∃ l h, lo ≤ l ∧ l ≤ h ∧ h ≤ hi ∧ Close tol n (hi - lo) l h ∧ (l = lo ∨ f l = .ok true) ∧
        (h = hi ∨ f h = .ok false) ∧ (n = 0 → r = last ∧ l = lo ∧ h = hi) ∧
        (0 < n → r = some l ∧ f l = .ok true ∨ r = some h ∧ f h = .ok false) ∧
        (0 < n → lo < hi → ∀ x, r = some x → lo < x ∧ x < hi) := by
  intro n
  induction n with
  | zero =>
    intro lo hi hle _ last st st' r h
    simp only [searchLoop, Prod.mk.injEq, Except.ok.injEq] at h
    refine ⟨lo, hi, le_refl _, hle, le_refl _, .inr (by simp), .inl rfl, .inl rfl, fun _ => ⟨h.1.symm, rfl, rfl⟩, fun h0 => ?_, fun h0 => ?_⟩ <;>
    omega
  | succ n ih =>
    intro lo hi hle hf last st st' r h
    have h1 : lo ≤ (lo + hi) / 2 := by linarith
    have h2 : (lo + hi) / 2 ≤ hi := by linarith
    have hx := hf _ h1 h2 st
    rw [searchLoop] at h
    dsimp only at h
    generalize func ((lo + hi) / 2) st = a at h hx
    obtain ⟨a1, a2⟩ := a
    cases a1 with
    | error e => cases h
    | ok b =>
      dsimp only at h hx
      have key : ∀ (l' h' : ℚ), l' ≤ h' → lo ≤ l' → h' ≤ hi → h' - l' = (hi - lo) / 2 → (l' = lo ∨ f l' = .ok true) →
          (h' = hi ∨ f h' = .ok false) →
          ((lo + hi) / 2 = l' ∧ f l' = .ok true ∨ (lo + hi) / 2 = h' ∧ f h' = .ok false) →
          (if Search.relDiff l' h' < tol then ((.ok (some ((lo + hi) / 2)), a2) : Except PErr (Option ℚ) × Settings κ)
            else searchLoop tol func n l' h' (some ((lo + hi) / 2)) a2) = (.ok r, st') →
          ∃ l h, lo ≤ l ∧ l ≤ h ∧ h ≤ hi ∧ Close tol (n + 1) (hi - lo) l h ∧ (l = lo ∨ f l = .ok true) ∧
            (h = hi ∨ f h = .ok false) ∧ (n + 1 = 0 → r = last ∧ l = lo ∧ h = hi) ∧
            (0 < n + 1 → r = some l ∧ f l = .ok true ∨ r = some h ∧ f h = .ok false) ∧
            (0 < n + 1 → lo < hi → ∀ x, r = some x → lo < x ∧ x < hi) := by
        intro l' h' k1 k2 k3 k4 k5 k6 k7 k8
        split at k8
        · rename_i hrel
          cases k8
          refine ⟨l', h', k2, k1, k3, ?_, k5, k6, by omega, fun _ => ?_, ?_⟩
          · left
            unfold Search.relDiff at hrel
            have hpos : (0 : ℚ) < max (max |l'| |h'|) 1 := lt_of_lt_of_le one_pos (le_max_right _ _)
            rwa [div_lt_iff₀ hpos] at hrel
          · rcases k7 with ⟨e, g⟩ | ⟨e, g⟩
            · left; exact ⟨by rw [e], g⟩
            · right; exact ⟨by rw [e], g⟩
          · rintro - hlt x hx
            cases hx
            constructor <;> linarith
        · obtain ⟨l, hh, m1, m2, m3, m4, m5, m6, m7, m8, m9⟩ := ih l' h' k1
            (fun x hx1 hx2 => hf x (by linarith) (by linarith)) _ _ _ _ k8
          refine ⟨l, hh, by linarith, m2, by linarith, ?_, ?_, ?_, by omega, fun _ => ?_, fun _ hlt => ?_⟩
          · rcases m4 with m4 | m4
            · exact .inl m4
            · right
              rw [m4, k4, pow_succ]
              field_simp
          · rcases m5 with rfl | m5
            · exact k5
            · exact .inr m5
          · rcases m6 with rfl | m6
            · exact k6
            · exact .inr m6
          · rcases Nat.eq_zero_or_pos n with h0 | h0
            · subst h0
              obtain ⟨rfl, rfl, rfl⟩ := m7 rfl
              rcases k7 with ⟨e, g⟩ | ⟨e, g⟩
              · left; exact ⟨by rw [e], g⟩
              · right; exact ⟨by rw [e], g⟩
            · exact m8 h0
          · rcases Nat.eq_zero_or_pos n with h0 | h0
            · subst h0
              obtain ⟨rfl, rfl, rfl⟩ := m7 rfl
              intro x hx
              cases hx
              constructor <;> linarith
            · intro x hx
              obtain ⟨q1, q2⟩ := m9 h0 (by linarith) x hx
              constructor <;> linarith
      cases b with
      | true =>
        exact key _ _ h2 h1 (le_refl _) (by ring) (.inr hx.symm) (.inl rfl) (.inl ⟨rfl, hx.symm⟩) h
      | false =>
        exact key _ _ h1 (le_refl _) h2 (by ring) (.inl rfl) (.inr hx.symm) (.inr ⟨rfl, hx.symm⟩) h

/-- The solver of a section never lets `DidNotConvergeError` escape. -/
theorem find_converges (env : Env κ) (sec : Sec κ) (value tol : ℚ) (s : Stream) (st : Settings κ) :
    (findSolution env sec value tol s st).1 ≠ .error .notConverged := by
  unfold findSolution
  generalize findSolutionE env sec value tol s st = a
  obtain ⟨a1, a2⟩ := a
  cases a1 with
  | ok sol => simp
  | error e => cases e <;> simp [caught]

theorem higher_converges (env : Env κ) (it : Item κ) (s : Stream) (hs : 0 < s.props.stdDensity) {r : ℚ} (hr : 0 ≤ r)
    (st : Settings κ) : (it.higher env s r st).1 ≠ .error .notConverged := by
  unfold Item.higher
  rw [withStd_ok s hs hr]
  have := find_converges env it.sec it.value it.tol (atRate s r) st
  show (it.isFeasible env (atRate s r) st).1 ≠ _
  unfold Item.isFeasible
  generalize findSolution env it.sec it.value it.tol (atRate s r) st = a at this ⊢
  obtain ⟨a1, a2⟩ := a
  cases a1 with
  | ok sol => simp
  | error e => simpa using this

omit [DecidableEq κ] in
theorem loop_error (tol : ℚ) (func : ℚ → Settings κ → Except PErr Bool × Settings κ) :
    ∀ (n : Nat) (lo hi : ℚ), lo ≤ hi → ∀ (last : Option ℚ) (st st' : Settings κ) (e : PErr),
      searchLoop tol func n lo hi last st = (.error e, st') →
      ∃ x st1, lo ≤ x ∧ x ≤ hi ∧ (func x st1).1 = .error e := by
  intro n
  induction n with
  | zero => intro lo hi _ last st st' e h; cases h
  | succ n ih =>
    intro lo hi hle last st st' e h
    have h1 : lo ≤ (lo + hi) / 2 := by linarith
    have h2 : (lo + hi) / 2 ≤ hi := by linarith
    rw [searchLoop] at h
    dsimp only at h
    cases hfx : func ((lo + hi) / 2) st with
    | mk a1 a2 =>
      rw [hfx] at h
      cases a1 with
      | error e' =>
        cases h
        exact ⟨_, st, h1, h2, by rw [hfx]⟩
      | ok b =>
        dsimp only at h
        cases b with
        | true =>
          simp only [if_true] at h
          split at h
          · cases h
          · obtain ⟨x, st1, q1, q2, q3⟩ := ih _ _ h2 _ _ _ _ h
            exact ⟨x, st1, by linarith, q2, q3⟩
        | false =>
          simp only [Bool.false_eq_true, if_false] at h
          split at h
          · cases h
          · obtain ⟨x, st1, q1, q2, q3⟩ := ih _ _ h1 _ _ _ _ h
            exact ⟨x, st1, q1, by linarith, q3⟩

omit [DecidableEq κ] in
theorem loop_fresh (tol : ℚ) (func : ℚ → Settings κ → Except PErr Bool × Settings κ) (f : ℚ → Except PErr Bool) :
    ∀ (n : Nat) (lo hi : ℚ), lo ≤ hi → (∀ x, lo ≤ x → x ≤ hi → ∀ st, (func x st).1 = f x) →
      ∀ (last : Option ℚ) (st st' : Settings κ),
      (searchLoop tol func n lo hi last st).1 = (searchLoop tol func n lo hi last st').1 := by
  intro n
  induction n with
  | zero => intro lo hi _ _ last st st'; rfl
  | succ n ih =>
    intro lo hi hle hf last st st'
    have h1 : lo ≤ (lo + hi) / 2 := by linarith
    have h2 : (lo + hi) / 2 ≤ hi := by linarith
    have e1 := hf _ h1 h2 st
    have e2 := hf _ h1 h2 st'
    rw [searchLoop, searchLoop]
    dsimp only
    generalize func ((lo + hi) / 2) st = a at e1 ⊢
    generalize func ((lo + hi) / 2) st' = b at e2 ⊢
    obtain ⟨a1, a2⟩ := a
    obtain ⟨b1, b2⟩ := b
    dsimp only at e1 e2
    rw [e1, e2]
    cases f ((lo + hi) / 2) with
    | error e => rfl
    | ok higher =>
      dsimp only
      cases higher with
      | true =>
        simp only [if_true]
        split
        · rfl
        · exact ih _ _ h2 (fun x q1 q2 => hf x (by linarith) q2) _ _ _
      | false =>
        simp only [Bool.false_eq_true, if_false]
        split
        · rfl
        · exact ih _ _ h1 (fun x q1 q2 => hf x q1 (by linarith)) _ _ _

/-- What `get_excess_rate` does when it does not raise. -/
theorem excess_parts {it : Item κ} (hc : Closed it.sec) (env : Env κ) {s : Stream} (hs : Valid s) {st st' : Settings κ}
    {x : ℚ} (h : it.excess env s st = (.ok x, st')) :
    (s.stdRate ≤ 0 ∧ x = 0) ∨ (0 < s.stdRate ∧ Handles env it s ∧ x = 0) ∨
    (0 < s.stdRate ∧ Refuses env it s ∧ ((it.searchMax = 0 ∧ x = s.stdRate) ∨
      ∃ l h, 0 ≤ l ∧ l ≤ h ∧ h ≤ s.stdRate ∧ Close it.searchTol it.searchMax s.stdRate l h ∧
        (l = 0 ∨ Handles env it (atRate s l)) ∧ Refuses env it (atRate s h) ∧
        (s.stdRate - x = l ∧ Handles env it (atRate s l) ∨ s.stdRate - x = h) ∧ 0 < x ∧ x < s.stdRate)) := by
  unfold Item.excess at h
  split at h
  · rename_i h0
    cases h
    exact .inl ⟨h0, rfl⟩
  · rename_i h0
    have hpos : 0 < s.stdRate := not_le.1 h0
    have hf := feasible_fresh hc env s st
    generalize it.isFeasible env s st = a at h hf
    obtain ⟨a1, a2⟩ := a
    cases a1 with
    | error e => cases h
    | ok b =>
      dsimp only at hf h
      cases b with
      | true =>
        cases h
        exact .inr (.inl ⟨hpos, answer_true.1 hf.symm, rfl⟩)
      | false =>
        have hrf : Refuses env it s := answer_false.1 hf.symm
        refine .inr (.inr ⟨hpos, hrf, ?_⟩)
        dsimp only at h
        have hff : ∀ y, 0 ≤ y → y ≤ s.stdRate → ∀ st, (it.higher env s y st).1 = answer env it (atRate s y) :=
          fun y hy _ st => higher_fresh hc env s hs.1 hy st
        have hspec := loop_spec it.searchTol (it.higher env s) (fun y => answer env it (atRate s y)) it.searchMax 0
          s.stdRate hpos.le hff none a2
        unfold Item.largestFeasible at h
        have herr := loop_error it.searchTol (it.higher env s) it.searchMax 0 s.stdRate hpos.le none a2
        generalize searchLoop it.searchTol (it.higher env s) it.searchMax 0 s.stdRate none a2 = c at h hspec herr
        obtain ⟨c1, c2⟩ := c
        cases c1 with
        | error e =>
          cases e <;> first
            | (exfalso; obtain ⟨y, st1, y1, -, y3⟩ := herr _ _ rfl; exact higher_converges env it s hs.1 y1 st1 y3)
            | cases h
        | ok r =>
          obtain ⟨l, hh, m1, m2, m3, m4, m5, m6, m7, m8, m9⟩ := hspec _ _ rfl
          rw [sub_zero] at m4
          rcases Nat.eq_zero_or_pos it.searchMax with h0 | h0
          · obtain ⟨rfl, -, -⟩ := m7 h0
            simp only [Prod.mk.injEq, Except.ok.injEq, sub_zero] at h
            exact .inl ⟨h0, by rw [← h.1]; exact max_eq_right hpos.le⟩
          · right
            have hh' : Refuses env it (atRate s hh) := by
              rcases m6 with rfl | m6
              · rw [atRate_self s hs.1]; exact hrf
              · exact answer_false.1 m6
            have hl' : l = 0 ∨ Handles env it (atRate s l) := m5.imp_right answer_true.1
            refine ⟨l, hh, m1, m2, m3, m4, hl', hh', ?_⟩
            have m8 := m8 h0
            have m9 := m9 h0 hpos
            cases r with
            | none => rcases m8 with ⟨q, -⟩ | ⟨q, -⟩ <;> cases q
            | some y =>
              obtain ⟨y1, y2⟩ := m9 y rfl
              simp only [Prod.mk.injEq, Except.ok.injEq] at h
              have hx : x = s.stdRate - y := by rw [← h.1]; exact max_eq_right (by linarith)
              refine ⟨?_, by linarith, by linarith⟩
              rcases m8 with ⟨q, g⟩ | ⟨q, g⟩
              · cases q
                exact .inl ⟨by linarith, answer_true.1 g⟩
              · cases q
                exact .inr (by linarith)

/-! ## Theorems -/

/-- **C78.** The excess rate lies between 0 and the rate; it is 0 exactly when there is no flow or the train handles
the whole stream. -/
theorem C78_excess {it : Item κ} (hc : Closed it.sec) (env : Env κ) {s : Stream} (hs : Valid s) {st st' : Settings κ}
    {x : ℚ} (h : it.excess env s st = (.ok x, st')) :
    0 ≤ x ∧ x ≤ s.stdRate ∧ (x = 0 ↔ s.stdRate = 0 ∨ Handles env it s) ∧ (0 < x → Refuses env it s) := by
  have h0 : 0 ≤ s.stdRate := by
    unfold Stream.stdRate
    have := hs.1
    have := hs.2
    positivity
  rcases excess_parts hc env hs h with ⟨h1, rfl⟩ | ⟨h1, h2, rfl⟩ | ⟨h1, h2, h3⟩
  · exact ⟨le_refl _, h0, by simp [le_antisymm h1 h0], fun h => absurd h (lt_irrefl _)⟩
  · exact ⟨le_refl _, h0, by simp [h2], fun h => absurd h (lt_irrefl _)⟩
  · have hx : 0 < x ∧ x ≤ s.stdRate := by
      rcases h3 with ⟨-, rfl⟩ | ⟨l, hh, -, -, -, -, -, -, -, q1, q2⟩
      · exact ⟨h1, le_refl _⟩
      · exact ⟨q1, q2.le⟩
    refine ⟨hx.1.le, hx.2, ⟨fun e => absurd e hx.1.ne', ?_⟩, fun _ => h2⟩
    rintro (e | e)
    · exact absurd e h1.ne'
    · exact absurd h2 (not_both e)

/-- **C78.** A train is valid for a stream exactly when there is no flow or it handles the stream. -/
theorem C78_valid {it : Item κ} (hc : Closed it.sec) (env : Env κ) {s : Stream} (hs : Valid s) {st st' : Settings κ}
    {b : Bool} (h : it.isValid env s st = (.ok b, st')) : b = true ↔ s.stdRate = 0 ∨ Handles env it s := by
  unfold Item.isValid at h
  cases ha : it.excess env s st with
  | mk a1 a2 =>
    rw [ha] at h
    cases a1 with
    | error e => cases h
    | ok x =>
      cases h
      rw [decide_eq_true_iff]
      exact (C78_excess hc env hs ha).2.2.1

/-- **C78.** What is left after the excess is one end of a bracket. The train refuses its upper end and handles its
lower end, unless that is 0; the bracket is as narrow as the search promises. -/
theorem C78_bracket {it : Item κ} (hc : Closed it.sec) (env : Env κ) {s : Stream} (hs : Valid s) {st st' : Settings κ}
    {x : ℚ} (h : it.excess env s st = (.ok x, st')) (hx : 0 < x) (hm : 0 < it.searchMax) :
    ∃ l h, 0 ≤ l ∧ l ≤ h ∧ h ≤ s.stdRate ∧ Close it.searchTol it.searchMax s.stdRate l h ∧
        (l = 0 ∨ Handles env it (atRate s l)) ∧ Refuses env it (atRate s h) ∧
        (s.stdRate - x = l ∧ Handles env it (atRate s l) ∨ s.stdRate - x = h) := by
  rcases excess_parts hc env hs h with ⟨-, rfl⟩ | ⟨-, -, rfl⟩ | ⟨h1, h2, h3⟩
  · exact absurd hx (lt_irrefl _)
  · exact absurd hx (lt_irrefl _)
  · rcases h3 with ⟨h3, -⟩ | ⟨l, hh, g1, g2, g3, g4, g5, g6, g7, -⟩
    · omega
    · exact ⟨l, hh, g1, g2, g3, g4, g5, g6, g7⟩

theorem close_le {tol : ℚ} {n : Nat} {w l h : ℚ} (ht : 0 ≤ tol) (h0 : 0 ≤ l) (hl : l ≤ h) (hw : h ≤ w)
    (hc : Close tol n w l h) : h - l ≤ max (tol * max w 1) (w / 2 ^ n) := by
  rcases hc with hc | hc
  · have h1 : max |l| |h| ≤ w := by
      rw [abs_of_nonneg h0, abs_of_nonneg (h0.trans hl)]
      exact max_le (hl.trans hw) hw
    have h2 : tol * max (max |l| |h|) 1 ≤ tol * max w 1 := mul_le_mul_of_nonneg_left (max_le_max h1 (le_refl _)) ht
    exact le_max_of_le_left (by linarith)
  · exact le_max_of_le_right hc.le

/-- **C78.** If a train that handles a rate handles every lower one, what is left after the excess is the capacity of the
train, up to the tolerance of the search: the train handles no rate that is larger by more, and every rate that is
smaller by more. -/
theorem C78_capacity {it : Item κ} (hc : Closed it.sec) (env : Env κ) {s : Stream} (hs : Valid s) {st st' : Settings κ}
    {x : ℚ} (h : it.excess env s st = (.ok x, st')) (hx : 0 < x) (hm : 0 < it.searchMax) (ht : 0 ≤ it.searchTol)
    (hdown : ∀ r r', 0 < r → r ≤ r' → r' ≤ s.stdRate → Handles env it (atRate s r') → Handles env it (atRate s r))
    (r : ℚ) (hr : 0 < r) (hrs : r ≤ s.stdRate) :
    (Handles env it (atRate s r) →
      r ≤ s.stdRate - x + max (it.searchTol * max s.stdRate 1) (s.stdRate / 2 ^ it.searchMax)) ∧
    (¬ Handles env it (atRate s r) →
      s.stdRate - x - max (it.searchTol * max s.stdRate 1) (s.stdRate / 2 ^ it.searchMax) ≤ r) := by
  obtain ⟨l, hh, g1, g2, g3, g4, g5, g6, g7⟩ := C78_bracket hc env hs h hx hm
  have hd := close_le ht g1 g2 g3 g4
  have hk : l ≤ s.stdRate - x ∧ s.stdRate - x ≤ hh := by
    rcases g7 with ⟨g7, -⟩ | g7 <;> rw [g7]
    · exact ⟨le_refl _, g2⟩
    · exact ⟨g2, le_refl _⟩
  constructor
  · intro hr'
    have : r ≤ hh := by
      by_contra hlt
      push Not at hlt
      rcases lt_or_eq_of_le (g1.trans g2) with h0 | h0
      · exact not_both (hdown _ _ h0 hlt.le hrs hr') g6
      · have := hk.1; have := hk.2
        rcases excess_parts hc env hs h with ⟨-, rfl⟩ | ⟨-, -, rfl⟩ | ⟨h1, h2, h3⟩
        · exact absurd hx (lt_irrefl _)
        · exact absurd hx (lt_irrefl _)
        · rcases h3 with ⟨h3, -⟩ | ⟨_, _, _, _, _, _, _, _, _, _, h3⟩
          · omega
          · linarith
    linarith [hk.1]
  · intro hr'
    have : l ≤ r := by
      by_contra hlt
      push Not at hlt
      rcases g5 with g5 | g5
      · linarith
      · exact hr' (hdown _ _ hr hlt.le (g2.trans g3) g5)
    linarith [hk.2]

/-- **C78.** A train that handles no rate at all is still left with a rate: less than the tolerance, or what remains
after all halvings. -/
theorem C78_hopeless {it : Item κ} (hc : Closed it.sec) (env : Env κ) {s : Stream} (hs : Valid s) {st st' : Settings κ}
    {x : ℚ} (h : it.excess env s st = (.ok x, st')) (hf : 0 < s.stdRate) (hm : 0 < it.searchMax) (ht : it.searchTol ≤ 1)
    (hno : ∀ r, 0 < r → r ≤ s.stdRate → ¬ Handles env it (atRate s r)) :
    0 < s.stdRate - x ∧ (s.stdRate - x < it.searchTol ∨ s.stdRate - x = s.stdRate / 2 ^ it.searchMax) := by
  rcases excess_parts hc env hs h with ⟨h1, rfl⟩ | ⟨-, h2, rfl⟩ | ⟨h1, h2, h3⟩
  · linarith
  · refine absurd ?_ (hno _ hf (le_refl _))
    rw [atRate_self s hs.1]; exact h2
  · rcases h3 with ⟨h3, -⟩ | ⟨l, hh, g1, g2, g3, g4, g5, g6, g7, g8, g9⟩
    · omega
    · have hl : l = 0 := by
        rcases g5 with g5 | g5
        · exact g5
        · by_contra hne
          exact hno l (lt_of_le_of_ne g1 (Ne.symm hne)) (g2.trans g3) g5
      subst hl
      have hk : s.stdRate - x = hh := by
        rcases g7 with ⟨g7, -⟩ | g7
        · linarith
        · exact g7
      refine ⟨by linarith, ?_⟩
      rw [hk]
      rcases g4 with g4 | g4
      · left
        rw [sub_zero, abs_zero, abs_of_nonneg g2, max_eq_right g2] at g4
        rcases le_total hh 1 with h1 | h1
        · rwa [max_eq_right h1, mul_one] at g4
        · rw [max_eq_left h1] at g4
          nlinarith
      · right
        rw [sub_zero] at g4
        exact g4

/-- **C78.** The excess rate does not depend on what the train was used for before. -/
theorem C78_history {it : Item κ} (hc : Closed it.sec) (env : Env κ) {s : Stream} (hs : Valid s) (st st' : Settings κ) :
    (it.excess env s st).1 = (it.excess env s st').1 := by
  unfold Item.excess
  split
  · rfl
  · rename_i h0
    have hpos : 0 < s.stdRate := not_le.1 h0
    have e1 := feasible_fresh hc env s st
    have e2 := feasible_fresh hc env s st'
    generalize it.isFeasible env s st = a at e1 ⊢
    generalize it.isFeasible env s st' = b at e2 ⊢
    obtain ⟨a1, a2⟩ := a
    obtain ⟨b1, b2⟩ := b
    dsimp only at e1 e2
    rw [e1, e2]
    cases answer env it s with
    | error e => rfl
    | ok c =>
      cases c with
      | true => rfl
      | false =>
        dsimp only
        have hl := loop_fresh it.searchTol (it.higher env s) (fun y => answer env it (atRate s y)) it.searchMax 0
          s.stdRate hpos.le (fun y hy _ st => higher_fresh hc env s hs.1 hy st) none a2 b2
        unfold Item.largestFeasible
        generalize searchLoop it.searchTol (it.higher env s) it.searchMax 0 s.stdRate none a2 = u at hl ⊢
        generalize searchLoop it.searchTol (it.higher env s) it.searchMax 0 s.stdRate none b2 = v at hl ⊢
        obtain ⟨u1, u2⟩ := u
        obtain ⟨v1, v2⟩ := v
        dsimp only at hl
        subst hl
        cases u1 with
        | error e => cases e <;> rfl
        | ok r => cases r <;> rfl

/-- **C78.** If the solver answers for every rate up to the rate of the stream, so does the excess rate; the only
exceptions are those that the solver lets escape. -/
theorem C78_raises {it : Item κ} (hc : Closed it.sec) (env : Env κ) {s : Stream} (hs : Valid s) {st st' : Settings κ}
    {e : PErr} (h : it.excess env s st = (.error e, st')) :
    ∃ r, 0 ≤ r ∧ r ≤ s.stdRate ∧ (findSolution env it.sec it.value it.tol (atRate s r) fun _ => 0).1 = .error e := by
  have hans : ∀ t, answer env it t = .error e → (findSolution env it.sec it.value it.tol t fun _ => 0).1 = .error e := by
    intro t ht
    unfold answer Item.isFeasible at ht
    generalize findSolution env it.sec it.value it.tol t (fun _ => 0) = a at ht ⊢
    obtain ⟨a1, a2⟩ := a
    cases a1 with
    | ok sol => cases ht
    | error e' => cases ht; rfl
  unfold Item.excess at h
  split at h
  · cases h
  · rename_i h0
    have hpos : 0 < s.stdRate := not_le.1 h0
    have hf := feasible_fresh hc env s st
    generalize it.isFeasible env s st = a at h hf
    obtain ⟨a1, a2⟩ := a
    cases a1 with
    | error e' =>
      cases h
      exact ⟨s.stdRate, hpos.le, le_refl _, by rw [atRate_self s hs.1]; exact hans s hf.symm⟩
    | ok b =>
      cases b with
      | true => cases h
      | false =>
        dsimp only at h
        unfold Item.largestFeasible at h
        have herr := loop_error it.searchTol (it.higher env s) it.searchMax 0 s.stdRate hpos.le none a2
        generalize searchLoop it.searchTol (it.higher env s) it.searchMax 0 s.stdRate none a2 = c at h herr
        obtain ⟨c1, c2⟩ := c
        cases c1 with
        | error e' =>
          obtain ⟨y, st1, y1, y2, y3⟩ := herr _ _ rfl
          have hee : e' = e := by cases e' <;> first | rfl | (cases h; rfl) | cases h
          subst hee
          rw [higher_fresh hc env s hs.1 y1] at y3
          exact ⟨y, y1, y2, hans _ y3⟩
        | ok r => cases r <;> cases h

/-! ## Examples -/

/-- The train of C73 (flow up to 100 at speed 100) for 70 bara. -/
def usual : Item Nat := { sec := C73.train, value := 70, tol := 1 / 1000 }

theorem usual_closed : Closed usual.sec := C73.train_closed

theorem inlet_valid (m : ℚ) (h : 0 ≤ m) : Valid (C73.inlet m) := ⟨by norm_num [C73.inlet], h⟩

theorem first_ok {β : Type} {a : Except PErr β × Settings Nat} {x : β} (h : a.1.toOption = some x) :
    ∃ st', a = (.ok x, st') := by
  obtain ⟨a1, a2⟩ := a
  cases a1 with
  | error e => cases h
  | ok y => cases h; exact ⟨a2, rfl⟩

/-- A stream of 2400 Sm³/day is handled; of 90000 about a third is in excess. -/
example : (usual.excess C73.world (C73.inlet 80) fun _ => 3).1.toOption = some 0 ∧
    (usual.excess C73.world (C73.inlet 3000) fun _ => 3).1.toOption = some (30718125 / 1024) ∧
    (C73.inlet 3000).stdRate = 90000 := by decide +kernel

/-- The validity of the same streams. -/
example : (usual.isValid C73.world (C73.inlet 80) fun _ => 3).1.toOption = some true ∧
    (usual.isValid C73.world (C73.inlet 3000) fun _ => 3).1.toOption = some false ∧
    (usual.isValid C73.world (C73.inlet 0) fun _ => 3).1.toOption = some true := by decide +kernel

/-- **Deviation.** What is left after the excess can be more than the train handles: the search returns the last rate
tried, not the last one that was handled. -/
theorem C78_overfull : ∃ (env : Env Nat) (it : Item Nat) (s : Stream) (st' : Settings Nat) (x : ℚ),
    Closed it.sec ∧ Valid s ∧ it.searchTol = 1 / 10000 ∧ it.searchMax = 40 ∧ it.excess env s (fun _ => 0) = (.ok x, st') ∧
    0 < x ∧ Refuses env it (atRate s (s.stdRate - x)) ∧ Handles env it (atRate s (s.stdRate / 2)) := by
  obtain ⟨st', h⟩ := first_ok (a := usual.excess C73.world (C73.inlet 3000) fun _ => 0) (x := 30718125 / 1024)
    (by decide +kernel)
  refine ⟨C73.world, usual, C73.inlet 3000, st', _, usual_closed, inlet_valid _ (by norm_num), rfl, rfl, h, by norm_num,
    ?_, ?_⟩
  · rw [← answer_false]
    have : (answer C73.world usual (atRate (C73.inlet 3000) ((C73.inlet 3000).stdRate - 30718125 / 1024))).toOption =
      some false := by decide +kernel
    generalize answer C73.world usual (atRate (C73.inlet 3000) ((C73.inlet 3000).stdRate - 30718125 / 1024)) = a at this ⊢
    cases a with
    | error e => cases this
    | ok b => cases this; rfl
  · rw [← answer_true]
    have : (answer C73.world usual (atRate (C73.inlet 3000) ((C73.inlet 3000).stdRate / 2))).toOption =
      some true := by decide +kernel
    generalize answer C73.world usual (atRate (C73.inlet 3000) ((C73.inlet 3000).stdRate / 2)) = a at this ⊢
    cases a with
    | error e => cases this
    | ok b => cases this; rfl

/-- A train for 500 bara handles nothing and is left with a little. -/
example : ((usual.excess C73.world (C73.inlet 3000) fun _ => 3).1.toOption.map fun x => 90000 - x) = some (61441875 / 1024) ∧
    (({ usual with value := 500 }.excess C73.world (C73.inlet 3000) fun _ => 3).1.toOption.map fun x => 90000 - x) =
      some (90000 / 2 ^ 30) := by decide +kernel

end Verif.C78
