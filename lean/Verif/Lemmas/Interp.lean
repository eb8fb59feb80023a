import Mathlib.Tactic.Linarith
import Mathlib.Tactic.Ring
import Mathlib.Tactic.FieldSimp
import Mathlib.Tactic.NormNum
import Mathlib.Algebra.BigOperators.Group.List.Basic
import Verif.Lemmas.RateLemmas
import Verif.Lemmas.SortedSet
import Verif.Props.C05

/-! # Helper lemmas: interpolating cumulative volumes integrates the period volumes -/

namespace Verif.Interp
open Verif.Time Verif.Units Verif.Rates Verif.RateLemmas Verif.C05

/-- Running totals as rationals. -/
def cumQ (acc : ℚ) : List Fl → List ℚ
  | [] => []
  | v :: vs => (acc + v.getD 0) :: cumQ (acc + v.getD 0) vs

theorem nancumsumFrom_eq (a : ℚ) (vs : List Fl) : nancumsumFrom a vs = (cumQ a vs).map some := by
  induction vs generalizing a with
  | nil => rfl
  | cons v vs ih => simp [nancumsumFrom, cumQ, ih]

theorem knownPoints_some (ds : List Int) (qs : List ℚ) : knownPoints ds (qs.map some) = ds.zip qs := by
  unfold knownPoints
  induction ds generalizing qs with
  | nil => simp
  | cons d ds ih =>
    cases qs with
    | nil => simp
    | cons q qs => simp [ih]

theorem wf_allDates {p : Period} {ps : List Period} (h : WF (p :: ps)) :
    Periods.allDates (p :: ps) = .ok (p.start :: (p :: ps).map (·.stop)) := by
  have key : ∀ (ps : List Period) (p : Period), WF (p :: ps) →
      Periods.startDates (p :: ps) ++ [((p :: ps).getLast (by simp)).stop] = p.start :: (p :: ps).map (·.stop) := by
    intro ps
    induction ps with
    | nil => intro p _; simp [Periods.startDates]
    | cons q ps ih =>
      intro p h
      obtain ⟨h1, h2, h3⟩ := h
      have := ih q h3
      simp only [Periods.startDates, List.map_cons, List.cons_append] at this ⊢
      rw [List.getLast_cons (by simp)]
      rw [this, h2]
  have hl : (Periods.endDates (p :: ps)).getLast? = some ((p :: ps).getLast (by simp)).stop := by
    unfold Periods.endDates
    rw [List.getLast?_map, List.getLast?_eq_some_getLast (by simp)]
    rfl
  unfold Periods.allDates
  rw [hl]
  simp only [key ps p h]

/-- Length of the part of `p` before `d`. -/
def covered (p : Period) (d : Int) : Int := max 0 (min p.stop d - p.start)

/-- Volume produced before `d`. -/
def before (ps : List Period) (vs : List Fl) (d : Int) : ℚ :=
  ((ps.zip vs).map (fun pv => pv.2.getD 0 * ((covered pv.1 d : Int) : ℚ) / ((pv.1.stop - pv.1.start : Int) : ℚ))).sum

theorem before_cons (p : Period) (ps : List Period) (v : Fl) (vs : List Fl) (d : Int) :
    before (p :: ps) (v :: vs) d
      = v.getD 0 * ((covered p d : Int) : ℚ) / ((p.stop - p.start : Int) : ℚ) + before ps vs d := by
  simp [before]

theorem before_early (ps : List Period) (vs : List Fl) (d : Int) (h : ∀ p ∈ ps, d ≤ p.start) :
    before ps vs d = 0 := by
  induction ps generalizing vs with
  | nil => simp [before]
  | cons p ps ih =>
    cases vs with
    | nil => simp [before]
    | cons v vs =>
      rw [before_cons, ih vs (fun q hq => h q (by simp [hq]))]
      have : covered p d = 0 := by
        have := h p (by simp)
        unfold covered; omega
      simp [this]

theorem before_late (ps : List Period) (vs : List Fl) (d : Int) (hl : ps.length = vs.length)
    (hp : ∀ p ∈ ps, p.start < p.stop ∧ p.stop ≤ d) :
    before ps vs d = (vs.map (fun v => v.getD 0)).sum := by
  induction ps generalizing vs with
  | nil =>
    cases vs with
    | nil => simp [before]
    | cons v vs => simp at hl
  | cons p ps ih =>
    cases vs with
    | nil => simp at hl
    | cons v vs =>
      rw [before_cons, ih vs (by simpa using hl) (fun q hq => hp q (by simp [hq]))]
      obtain ⟨h1, h2⟩ := hp p (by simp)
      have : covered p d = p.stop - p.start := by unfold covered; omega
      rw [this]
      have hne : ((p.stop - p.start : Int) : ℚ) ≠ 0 := by
        have : p.stop - p.start ≠ 0 := by omega
        exact_mod_cast this
      simp only [List.map_cons, List.sum_cons]
      field_simp

theorem interpFrom_eq (ps : List Period) (vs : List Fl) (p : Period) (v : Fl) (c : ℚ) (d : Int)
    (hw : WF (p :: ps)) (hl : ps.length = vs.length) (hd : p.start ≤ d) :
    interpFrom p.start c (((p :: ps).map (·.stop)).zip (cumQ c (v :: vs))) d = c + before (p :: ps) (v :: vs) d := by
  induction ps generalizing p v vs c with
  | nil =>
    cases vs with
    | cons _ _ => simp at hl
    | nil =>
      simp only [List.map_cons, List.map_nil, cumQ, List.zip_cons_cons, List.zip_nil_left, interpFrom, before_cons]
      have hp : p.start < p.stop := hw
      have hne : ((p.stop - p.start : Int) : ℚ) ≠ 0 := by
        have : p.stop - p.start ≠ 0 := by omega
        exact_mod_cast this
      split
      · rename_i h
        have : covered p d = d - p.start := by unfold covered; omega
        rw [this]
        simp [before]
      · rename_i h
        have : covered p d = p.stop - p.start := by unfold covered; omega
        rw [this]
        simp only [before, List.zip_nil_left, List.map_nil, List.sum_nil]
        field_simp
        ring
  | cons q ps ih =>
    cases vs with
    | nil => simp at hl
    | cons w vs =>
      obtain ⟨h1, h2, h3⟩ := hw
      have hne : ((p.stop - p.start : Int) : ℚ) ≠ 0 := by
        have : p.stop - p.start ≠ 0 := by omega
        exact_mod_cast this
      rw [before_cons]
      have e1 : ((p :: q :: ps).map (·.stop)).zip (cumQ c (v :: w :: vs))
          = (p.stop, c + v.getD 0) :: ((q :: ps).map (·.stop)).zip (cumQ (c + v.getD 0) (w :: vs)) := by
        simp [cumQ]
      rw [e1]
      unfold interpFrom
      split
      · rename_i h
        have hc : covered p d = d - p.start := by unfold covered; omega
        rw [hc, before_early]
        · ring
        · intro r hr
          rcases List.mem_cons.mp hr with rfl | hr
          · omega
          · have := wf_head_le (p := q) h3 r hr
            have := wf_nonempty h3 q (by simp)
            omega
      · rename_i h
        rw [h2]
        rw [ih vs q w (c + v.getD 0) h3 (by simpa using hl) (by omega)]
        have hc : covered p d = p.stop - p.start := by unfold covered; omega
        rw [hc]
        field_simp
        rw [h2]
        have hne' : ((q.start : Int) : ℚ) - ((p.start : Int) : ℚ) ≠ 0 := by
          rw [h2] at hne; push_cast at hne; exact hne
        push_cast
        field_simp
        ring

end Verif.Interp
