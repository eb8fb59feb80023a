import Mathlib.Tactic.Linarith
import Mathlib.Tactic.Ring
import Mathlib.Tactic.NormNum
import Mathlib.Algebra.BigOperators.Group.List.Basic
import Mathlib.Algebra.Order.BigOperators.Group.List
import Verif.Lemmas.RateLemmas

/-! # C08 — Cumulative volumes and period volumes are inverse views -/

namespace Verif.C08
open Verif.Time Verif.Units Verif.Rates Verif.RateLemmas

/-- One value per period (what the constructor guarantees). -/
def OnePerPeriod (s : TS Fl) : Prop := s.periods.length = s.values.length

/-- Specification: the volume counted for a period (a missing value counts as zero). -/
def counted (v : Fl) : ℚ := v.getD 0

/-- Specification: total of the first `n` volumes. -/
def totalOfFirst (vs : List Fl) (n : Nat) : ℚ := ((vs.take n).map counted).sum

theorem nancumsumFrom_length (a : ℚ) (vs : List Fl) : (nancumsumFrom a vs).length = vs.length := by
  induction vs generalizing a with
  | nil => rfl
  | cons v vs ih => simp [nancumsumFrom, ih]

theorem diffFrom_length (a : Fl) (vs : List Fl) : (diffFrom a vs).length = vs.length := by
  induction vs generalizing a with
  | nil => rfl
  | cons v vs ih => simp [diffFrom, ih]

theorem nancumsumFrom_get (a : ℚ) (vs : List Fl) (i : Nat) (h : i < vs.length) :
    (nancumsumFrom a vs)[i]? = some (some (a + totalOfFirst vs (i + 1))) := by
  induction vs generalizing a i with
  | nil => simp at h
  | cons v vs ih =>
    cases i with
    | zero => simp [nancumsumFrom, totalOfFirst, counted]
    | succ i =>
      simp only [nancumsumFrom, List.getElem?_cons_succ]
      rw [ih _ i (by simpa using h)]
      simp [totalOfFirst, counted]; ring

theorem diffFrom_nancumsumFrom (a : ℚ) (vs : List Fl) :
    diffFrom (some a) (nancumsumFrom a vs) = vs.map (fun v => some (counted v)) := by
  induction vs generalizing a with
  | nil => rfl
  | cons v vs ih =>
    simp only [nancumsumFrom, diffFrom, List.map_cons]
    rw [ih]
    simp [Fl.sub, counted]

theorem nancumsumFrom_diffFrom (a : ℚ) (cs : List ℚ) :
    nancumsumFrom a (diffFrom (some a) (cs.map some)) = cs.map some := by
  induction cs generalizing a with
  | nil => rfl
  | cons c cs ih =>
    simp only [List.map_cons, diffFrom, nancumsumFrom, Fl.sub]
    simp only [Option.map_some, Option.bind_some, Option.getD_some]
    have : a + (c - a) = c := by ring
    rw [this, ih]

/-- **C08, accumulate then difference.** For every volume series, accumulating and taking differences gives
back the series, with missing values counted as zero; if no value is missing it is exactly the series. -/
theorem C08_volumes_round_trip (s : TS Fl) (hw : OnePerPeriod s) :
    ∃ c r, cumulative s = .ok c ∧ cumToVolumes c = .ok r ∧
      r.periods = s.periods ∧ r.unit = s.unit ∧ r.values = s.values.map (fun v => some (counted v)) ∧
      (none ∉ s.values → r = s) := by
  obtain ⟨ps, vs, u⟩ := s
  unfold OnePerPeriod at hw
  simp only at hw
  refine ⟨⟨ps, computeCumulative vs, u⟩, ⟨ps, vs.map (fun v => some (counted v)), u⟩, ?_, ?_, rfl, rfl, rfl, ?_⟩
  · simp [cumulative, TS.make, computeCumulative, nancumsumFrom_length, hw]
  · simp [cumToVolumes, TS.make, computeCumulative, diffFrom_nancumsumFrom, hw]
  · intro hn
    simp only at hn
    congr 1
    conv_rhs => rw [← List.map_id vs]
    apply List.map_congr_left
    intro v hv
    cases v with
    | none => exact absurd hv hn
    | some v => rfl

/-- **C08, difference then accumulate.** For every cumulative series without missing values. -/
theorem C08_cumulative_round_trip (s : TS Fl) (hw : OnePerPeriod s) (hn : none ∉ s.values) :
    ∃ v, cumToVolumes s = .ok v ∧ cumulative v = .ok s := by
  obtain ⟨ps, vs, u⟩ := s
  unfold OnePerPeriod at hw
  simp only at hw hn
  have hvs : ∃ cs : List ℚ, vs = cs.map some := by
    refine ⟨vs.map counted, ?_⟩
    rw [List.map_map]
    conv_lhs => rw [← List.map_id vs]
    apply List.map_congr_left
    intro v hv
    cases v with
    | none => exact absurd hv hn
    | some v => rfl
  obtain ⟨cs, rfl⟩ := hvs
  refine ⟨⟨ps, diffFrom (some 0) (cs.map some), u⟩, ?_, ?_⟩
  · simp [cumToVolumes, TS.make, diffFrom_length]; simpa using hw
  · simp [cumulative, TS.make, computeCumulative, nancumsumFrom_diffFrom]; simpa using hw

/-- **C08, totals.** Each cumulative value is the total of all volumes up to and including its period; in
particular the last one is the total of all volumes. -/
theorem C08_totals (s : TS Fl) (hw : OnePerPeriod s) :
    ∃ c, cumulative s = .ok c ∧ c.periods = s.periods ∧ c.unit = s.unit ∧ c.values.length = s.values.length ∧
      (∀ i, i < s.values.length → c.values[i]? = some (some (totalOfFirst s.values (i + 1)))) ∧
      (s.values ≠ [] → c.values.getLast? = some (some ((s.values.map counted).sum))) := by
  obtain ⟨ps, vs, u⟩ := s
  unfold OnePerPeriod at hw
  simp only at hw
  refine ⟨⟨ps, computeCumulative vs, u⟩, ?_, rfl, rfl, ?_, ?_, ?_⟩
  · simp [cumulative, TS.make, computeCumulative, nancumsumFrom_length, hw]
  · exact nancumsumFrom_length 0 vs
  · intro i hi
    have := nancumsumFrom_get 0 vs i hi
    simpa [computeCumulative] using this
  · intro hne
    simp only at hne
    have hpos : 0 < vs.length := List.length_pos_iff.mpr hne
    have := nancumsumFrom_get 0 vs (vs.length - 1) (by omega)
    rw [List.getLast?_eq_getElem?]
    simp only [computeCumulative, nancumsumFrom_length]
    rw [this]
    have h2 : vs.length - 1 + 1 = vs.length := by omega
    simp [totalOfFirst, h2]

/-- **C08, monotone.** With non-negative volumes the cumulative series never decreases. -/
theorem C08_non_decreasing (s : TS Fl) (hw : OnePerPeriod s) (hnn : ∀ v ∈ s.values, 0 ≤ counted v) :
    ∃ c, cumulative s = .ok c ∧ ∀ (i j : Nat) (x y : ℚ), i ≤ j → c.values[i]? = some (some x) →
      c.values[j]? = some (some y) → 0 ≤ x ∧ x ≤ y := by
  obtain ⟨c, hc, _, _, hlen, hget, _⟩ := C08_totals s hw
  refine ⟨c, hc, ?_⟩
  intro i j x y hij hx hy
  have key : ∀ k, 0 ≤ totalOfFirst s.values k := by
    intro k
    apply List.sum_nonneg
    intro z hz
    obtain ⟨v, hv, rfl⟩ := List.mem_map.mp hz
    exact hnn v (List.mem_of_mem_take hv)
  have hi : i < s.values.length := by
    rw [← hlen]; exact (List.getElem?_eq_some_iff.mp hx).1
  have hj : j < s.values.length := by
    rw [← hlen]; exact (List.getElem?_eq_some_iff.mp hy).1
  rw [hget i hi] at hx
  rw [hget j hj] at hy
  simp only [Option.some.injEq] at hx hy
  subst hx; subst hy
  refine ⟨key _, ?_⟩
  have hsplit : totalOfFirst s.values (j + 1) =
      totalOfFirst s.values (i + 1) + (((s.values.take (j + 1)).drop (i + 1)).map counted).sum := by
    unfold totalOfFirst
    have e : s.values.take (i + 1) = (s.values.take (j + 1)).take (i + 1) := by
      rw [List.take_take]; congr 1; omega
    rw [e, ← List.sum_append, ← List.map_append, List.take_append_drop]
  have hnn2 : 0 ≤ (((s.values.take (j + 1)).drop (i + 1)).map counted).sum := by
    apply List.sum_nonneg
    intro z hz
    obtain ⟨v, hv, rfl⟩ := List.mem_map.mp hz
    exact hnn v (List.mem_of_mem_take (List.mem_of_mem_drop hv))
  linarith

/-- Non-vacuity: three periods, one value missing. -/
example : OnePerPeriod ⟨[⟨0, 1⟩, ⟨1, 3⟩, ⟨3, 4⟩], [some 2, none, some 5], .KILO⟩ ∧
    (∀ v ∈ ([some 2, none, some 5] : List Fl), 0 ≤ counted v) ∧
    computeCumulative [some 2, none, some 5] = [some 2, some 2, some 7] := by
  refine ⟨rfl, ?_, by decide +kernel⟩
  simp [counted]

end Verif.C08
