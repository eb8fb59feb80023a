import Mathlib.Tactic.FieldSimp
import Mathlib.Tactic.Ring
import Mathlib.Tactic.NormNum
import Mathlib.Tactic.Linarith
import Verif.Model.InputSeries

/-! # C16 — Input time series are placed on the global time vector by their rule -/

namespace Verif.C16
open Verif.Time Verif.InputSeries

/-- Specification of interpolation: `v` is the value at `d` of the points `pts` by the given rule. -/
def Follows (pts : List (DateTime × ℚ)) : Interpolation → DateTime → ℚ → Prop
  | .right, d, v => ∃ t, (t, v) ∈ pts ∧ t ≤ d ∧ ∀ q ∈ pts, q.1 ≤ d → q.1 ≤ t
  | .left, d, v => ∃ t, (t, v) ∈ pts ∧ d ≤ t ∧ ∀ q ∈ pts, d ≤ q.1 → t ≤ q.1
  | .linear, d, v => (d, v) ∈ pts ∨ ∃ t0 v0 t1 v1, (t0, v0) ∈ pts ∧ (t1, v1) ∈ pts ∧ t0 < d ∧ d < t1 ∧
      (∀ q ∈ pts, q.1 ≤ t0 ∨ t1 ≤ q.1) ∧ v = v0 + (v1 - v0) * (((d - t0 : Int) : ℚ) / ((t1 - t0 : Int) : ℚ))

/-- Specification of a fitted value: zero before the first point; the rule between the first and the last
point; after the last point its value when extrapolating and zero otherwise. -/
def Fitted (pts : List (DateTime × ℚ)) (extrapolate : Bool) (kind : Interpolation) (d : DateTime) (v : ℚ) : Prop :=
  ((∀ q ∈ pts, d < q.1) ∧ v = 0) ∨
  ((∃ q ∈ pts, q.1 ≤ d) ∧ (∃ q ∈ pts, d ≤ q.1) ∧ Follows pts kind d v) ∨
  ((∀ q ∈ pts, q.1 < d) ∧
    (if extrapolate then ∃ t, (t, v) ∈ pts ∧ ∀ q ∈ pts, q.1 ≤ t else v = 0))

/-- For a predicate that holds on a prefix, the number of entries satisfying it is the length of the prefix. -/
theorem prefix_count {q : Int → Bool} {xs : List Int} (h : xs.Pairwise (fun a b => q b = true → q a = true)) :
    ∀ i (hi : i < xs.length), q xs[i] = true ↔ i < (xs.filter q).length := by
  induction xs with
  | nil => simp
  | cons x xs ih =>
    obtain ⟨h1, h2⟩ := List.pairwise_cons.mp h
    intro i hi
    by_cases hx : q x = true
    · rw [List.filter_cons_of_pos hx]
      cases i with
      | zero => simp [hx]
      | succ i => simpa using ih h2 i (by simpa using hi)
    · have hall : ∀ y ∈ xs, ¬ q y = true := fun y hy hc => hx (h1 y hy hc)
      rw [List.filter_cons_of_neg hx, List.filter_eq_nil_iff.mpr (by simpa using hall)]
      cases i with
      | zero => simp [hx]
      | succ i => simpa using hall _ (List.getElem_mem (l := xs) (by simpa using hi))

theorem prefix_le {q : Int → Bool} (xs : List Int) : (xs.filter q).length ≤ xs.length :=
  List.length_filter_le _ _

theorem at_ok {α : Type} {xs : List α} {i : Nat} (h : i < xs.length) : at? xs i = .ok xs[i] := by
  simp [at?, h]

theorem mem_zip_get {xs : List Int} {ys : List ℚ} (i : Nat) (h1 : i < xs.length) (h2 : i < ys.length) :
    (xs[i], ys[i]) ∈ xs.zip ys := by
  rw [List.mem_iff_getElem]
  exact ⟨i, by simp [h1, h2], by simp⟩

theorem get_of_mem_zip {xs : List Int} {ys : List ℚ} {q : Int × ℚ} (h : q ∈ xs.zip ys) :
    ∃ i, ∃ (h1 : i < xs.length) (h2 : i < ys.length), q = (xs[i], ys[i]) := by
  obtain ⟨i, hi, e⟩ := List.mem_iff_getElem.mp h
  simp at hi
  exact ⟨i, hi.1, hi.2, by rw [← e]; simp⟩

/-- One interpolated value follows the rule. -/
theorem interp1d_spec {xs : List Int} {ys : List ℚ} (hl : xs.length = ys.length)
    (hs : xs.Pairwise (· < ·)) (kind : Interpolation) (d x0 xl : Int) (hx0 : xs.head? = some x0)
    (hxl : xs.getLast? = some xl) (h0 : x0 ≤ d) (h1 : d ≤ xl) (h2 : 2 ≤ xs.length) :
    ∃ v, interp1d xs ys kind d = .ok v ∧ Follows (xs.zip ys) kind d v := by
  unfold interp1d
  rw [if_neg (by simpa using hl), hx0, hxl]
  simp only
  rw [if_neg (by omega)]
  have hlt : ∀ i (hi : i < xs.length), xs[i] < d ↔ i < countLt xs d := by
    intro i hi
    unfold countLt
    have := prefix_count (q := fun x => decide (x < d)) (xs := xs)
      (hs.imp (by intro a b hab h; simp at h ⊢; omega)) i hi
    simpa using this
  have hle : ∀ i (hi : i < xs.length), xs[i] ≤ d ↔ i < countLe xs d := by
    intro i hi
    unfold countLe
    have := prefix_count (q := fun x => decide (x ≤ d)) (xs := xs)
      (hs.imp (by intro a b hab h; simp at h ⊢; omega)) i hi
    simpa using this
  have hmono := List.pairwise_iff_getElem.mp hs
  have e0 : xs[0]'(by omega) = x0 := by
    rw [List.head?_eq_getElem?, List.getElem?_eq_getElem (by omega)] at hx0; simpa using hx0
  have el : xs[xs.length - 1]'(by omega) = xl := by
    rw [List.getLast?_eq_getElem?, List.getElem?_eq_getElem (by omega)] at hxl; simpa using hxl
  have c1 : countLt xs d < xs.length := by
    by_contra hc
    have := (hlt (xs.length - 1) (by omega)).mpr (by omega)
    omega
  have c2 : 0 < countLe xs d := (hle 0 (by omega)).mp (by omega)
  have c3 : countLe xs d ≤ xs.length := prefix_le xs
  cases kind with
  | right =>
    refine ⟨ys[countLe xs d - 1]'(by omega), at_ok (by omega), xs[countLe xs d - 1]'(by omega),
      mem_zip_get _ _ _, (hle _ _).mpr (by omega), ?_⟩
    intro q hq hqd
    obtain ⟨i, i1, i2, rfl⟩ := get_of_mem_zip hq
    have := (hle i i1).mp hqd
    rcases Nat.lt_or_ge i (countLe xs d - 1) with h | h
    · have := hmono i (countLe xs d - 1) i1 (by omega) h
      simp only; omega
    · have : i = countLe xs d - 1 := by omega
      subst this; simp
  | left =>
    have hd : d ≤ xs[countLt xs d] := by
      by_contra hc
      have := (hlt (countLt xs d) c1).mp (by omega)
      omega
    refine ⟨ys[countLt xs d]'(by omega), at_ok (by omega), xs[countLt xs d]'c1, mem_zip_get _ _ _, hd, ?_⟩
    intro q hq hqd
    obtain ⟨i, i1, i2, rfl⟩ := get_of_mem_zip hq
    have hn : ¬ i < countLt xs d := by
      intro hc
      have := (hlt i i1).mpr hc
      simp only at hqd; omega
    rcases Nat.lt_or_ge (countLt xs d) i with h | h
    · have := hmono (countLt xs d) i c1 i1 h
      simp only; omega
    · have : i = countLt xs d := by omega
      subst this; simp
  | linear =>
    obtain ⟨hi, hhi⟩ : ∃ hi, hi = min (max (countLt xs d) 1) (xs.length - 1) := ⟨_, rfl⟩
    simp only
    rw [← hhi]
    have b1 : 1 ≤ hi := by omega
    have b2 : hi < xs.length := by omega
    have hm := hmono (hi - 1) hi (by omega) b2 (by omega)
    simp only [at_ok (show hi - 1 < xs.length by omega), at_ok b2, at_ok (show hi - 1 < ys.length by omega),
      at_ok (show hi < ys.length by omega), Bind.bind, Except.bind, Pure.pure, Except.pure]
    refine ⟨_, rfl, ?_⟩
    have hlo : xs[hi - 1] ≤ d := by
      rcases Nat.lt_or_ge (hi - 1) (countLt xs d) with h | h
      · have := (hlt (hi - 1) (by omega)).mpr h; omega
      · have : hi - 1 = 0 := by omega
        simp only [this]; omega
    have hup : d ≤ xs[hi] := by
      have : ¬ hi < countLt xs d := by omega
      have := (not_congr (hlt hi b2)).mpr this
      omega
    have hne : ((xs[hi] - xs[hi - 1] : Int) : ℚ) ≠ 0 := by
      have : xs[hi] - xs[hi - 1] ≠ 0 := by omega
      exact_mod_cast this
    simp only [Follows]
    by_cases e1 : d = xs[hi - 1]
    · left
      have := mem_zip_get (xs := xs) (ys := ys) (hi - 1) (by omega) (by omega)
      rw [← e1] at this ⊢
      simpa using this
    · by_cases e2 : d = xs[hi]
      · left
        have := mem_zip_get (xs := xs) (ys := ys) hi (by omega) (by omega)
        rw [← e2] at this hne ⊢
        rw [div_mul_cancel₀ _ hne]
        simpa using this
      · right
        refine ⟨_, _, _, _, mem_zip_get (hi - 1) (by omega) (by omega), mem_zip_get hi b2 (by omega),
          by omega, by omega, ?_, by ring⟩
        intro q hq
        obtain ⟨i, i1, i2, rfl⟩ := get_of_mem_zip hq
        simp only
        rcases Nat.lt_or_ge i hi with h | h
        · left
          rcases Nat.lt_or_ge i (hi - 1) with h' | h'
          · have := hmono i (hi - 1) i1 (by omega) h'; omega
          · have : i = hi - 1 := by omega
            subst this; omega
        · right
          rcases Nat.lt_or_ge hi i with h' | h'
          · have := hmono hi i b2 i1 h'; omega
          · have : i = hi := by omega
            subst this; omega

theorem interp1d_single (t d : Int) (y : ℚ) (kind : Interpolation) (h0 : t ≤ d) (h1 : d ≤ t) :
    ∃ v, interp1d [t, t + 1000000] ([y] ++ [y]) kind d = .ok v ∧ Follows [(t, y)] kind d v := by
  obtain rfl : d = t := by omega
  have e1 : countLt [d, d + 1000000] d = 0 := by simp [countLt]
  have e2 : countLe [d, d + 1000000] d = 1 := by simp [countLe]
  refine ⟨y, ?_, ?_⟩
  · unfold interp1d
    cases kind <;> simp [e1, e2, at?, Bind.bind, Except.bind, Pure.pure, Except.pure]
  · cases kind <;> simp [Follows]

theorem mapM_rel {α β : Type} {f : α → Except Err β} {R : α → β → Prop} {xs : List α}
    (h : ∀ x ∈ xs, ∃ y, f x = .ok y ∧ R x y) : ∃ ys, xs.mapM f = .ok ys ∧ List.Forall₂ R xs ys := by
  induction xs with
  | nil => exact ⟨[], rfl, .nil⟩
  | cons x xs ih =>
    obtain ⟨y, hy, hr⟩ := h x (by simp)
    obtain ⟨ys, hys, hrs⟩ := ih (fun z hz => h z (by simp [hz]))
    exact ⟨y :: ys, by rw [List.mapM_cons]; simp [hy, hys, Bind.bind, Except.bind, Pure.pure, Except.pure],
      .cons hr hrs⟩

theorem interpolate_spec (s : Series) (hl : s.times.length = s.series.length) (hs : s.times.Pairwise (· < ·))
    (x0 xl : Int) (hx0 : s.times.head? = some x0) (hxl : s.times.getLast? = some xl) (target : List Int)
    (ht : ∀ d ∈ target, x0 ≤ d ∧ d ≤ xl) :
    ∃ vs, s.interpolate target = .ok vs ∧
      List.Forall₂ (Follows (s.times.zip s.series) s.interpolation) target vs := by
  obtain ⟨ts, ys, ex, kind⟩ := s
  simp only at hl hs hx0 hxl ⊢
  match ts, hl, hs, hx0, hxl with
  | [], _, _, hx0, _ => simp at hx0
  | [t], hl, hs, hx0, hxl =>
    match ys, hl with
    | [y], _ =>
      simp at hx0 hxl
      subst hx0 hxl
      unfold Series.interpolate
      simp only [List.zip_cons_cons, List.zip_nil_right]
      exact mapM_rel (fun d hd => interp1d_single t d y kind (ht d hd).1 (ht d hd).2)
    | [], hl => simp at hl
    | a :: b :: _, hl => simp at hl
  | a :: b :: ts, hl, hs, hx0, hxl =>
    unfold Series.interpolate
    simp only
    exact mapM_rel (fun d hd => interp1d_spec hl hs kind d x0 xl hx0 hxl (ht d hd).1 (ht d hd).2 (by simp))

/-- A sorted list is its part before a range, in the range and after the range. -/
theorem sorted_split (tv : List Int) (h : tv.Pairwise (· ≤ ·)) (a b : Int) (hab : a ≤ b) :
    tv = tv.filter (fun d => decide (d < a)) ++ tv.filter (fun d => decide (a ≤ d) && decide (d ≤ b)) ++
      tv.filter (fun d => decide (b < d)) := by
  induction tv with
  | nil => simp
  | cons t tv ih =>
    obtain ⟨h1, h2⟩ := List.pairwise_cons.mp h
    have ih' := ih h2
    rcases Int.lt_or_le t a with c | c
    · rw [List.filter_cons_of_pos (by simpa using c), List.filter_cons_of_neg (by simp; omega),
        List.filter_cons_of_neg (by simp; omega)]
      simp only [List.cons_append]
      rw [← ih']
    · have n1 : tv.filter (fun d => decide (d < a)) = [] := by
        rw [List.filter_eq_nil_iff]; intro x hx; have := h1 x hx; simp; omega
      rcases Int.lt_or_le b t with c' | c'
      · have n2 : tv.filter (fun d => decide (a ≤ d) && decide (d ≤ b)) = [] := by
          rw [List.filter_eq_nil_iff]; intro x hx; have := h1 x hx; simp; omega
        rw [n1, n2] at ih'
        rw [List.filter_cons_of_neg (by simpa using c), List.filter_cons_of_neg (by simp; omega),
          List.filter_cons_of_pos (by simp; omega), n1, n2]
        simp only [List.nil_append, List.nil_append] at ih' ⊢
        rw [← ih']
      · rw [n1] at ih'
        rw [List.filter_cons_of_neg (by simpa using c), List.filter_cons_of_pos (by simp; omega),
          List.filter_cons_of_neg (by simp; omega), n1]
        simp only [List.nil_append, List.cons_append] at ih' ⊢
        rw [← ih']

theorem forall₂_replicate {α β : Type} {R : α → β → Prop} {xs : List α} {y : β} (h : ∀ x ∈ xs, R x y) :
    List.Forall₂ R xs (List.replicate xs.length y) := by
  induction xs with
  | nil => exact .nil
  | cons x xs ih => exact .cons (h x (by simp)) (ih fun z hz => h z (by simp [hz]))

theorem forall₂_append {α β : Type} {R : α → β → Prop} {xs xs' : List α} {ys ys' : List β}
    (h : List.Forall₂ R xs ys) (h' : List.Forall₂ R xs' ys') : List.Forall₂ R (xs ++ xs') (ys ++ ys') := by
  induction h with
  | nil => exact h'
  | cons hr _ ih => exact .cons hr ih

theorem forall₂_imp {α β : Type} {R S : α → β → Prop} {xs : List α} {ys : List β}
    (h : List.Forall₂ R xs ys) (hi : ∀ x ∈ xs, ∀ y, R x y → S x y) : List.Forall₂ S xs ys := by
  induction h with
  | nil => exact .nil
  | cons hr _ ih => exact .cons (hi _ (by simp) _ hr) (ih fun x hx => hi x (by simp [hx]))

/-- Fitting a series whose dates are strictly increasing. -/
theorem fit_sorted (s : Series) (hl : s.times.length = s.series.length) (hs : s.times.Pairwise (· < ·))
    (hne : s.times ≠ []) (tv : List DateTime) (htv : tv.Pairwise (· ≤ ·)) :
    ∃ r, s.fit tv = .ok r ∧ r.times = tv ∧ r.extrapolate = s.extrapolate ∧ r.interpolation = s.interpolation ∧
      List.Forall₂ (Fitted (s.times.zip s.series) s.extrapolate s.interpolation) tv r.series := by
  have hx0 := List.head?_eq_some_head hne
  have hxl := List.getLast?_eq_some_getLast hne
  generalize s.times.head hne = x0 at hx0
  generalize s.times.getLast hne = xl at hxl
  have hmono := List.pairwise_iff_getElem.mp hs
  have hlen := List.length_pos_iff.mpr hne
  have e0 : s.times[0] = x0 := by
    rw [List.head?_eq_getElem?, List.getElem?_eq_getElem (by omega)] at hx0; simpa using hx0
  have el : s.times[s.times.length - 1] = xl := by
    rw [List.getLast?_eq_getElem?, List.getElem?_eq_getElem (by omega)] at hxl; simpa using hxl
  have hfirst : ∀ q ∈ s.times.zip s.series, x0 ≤ q.1 := by
    intro q hq
    obtain ⟨i, i1, i2, rfl⟩ := get_of_mem_zip hq
    rcases Nat.eq_zero_or_pos i with rfl | h
    · simp [e0]
    · have := hmono 0 i hlen i1 h; simp only; omega
  have hlast : ∀ q ∈ s.times.zip s.series, q.1 ≤ xl := by
    intro q hq
    obtain ⟨i, i1, i2, rfl⟩ := get_of_mem_zip hq
    rcases Nat.lt_or_ge i (s.times.length - 1) with h | h
    · have := hmono i _ i1 (by omega) h; simp only; omega
    · have : i = s.times.length - 1 := by omega
      subst this; simp [el]
  have m0 : (x0, s.series[0]'(by omega)) ∈ s.times.zip s.series := by
    have := mem_zip_get (xs := s.times) (ys := s.series) 0 (by omega) (by omega)
    rwa [e0] at this
  have ml : (xl, s.series[s.times.length - 1]'(by omega)) ∈ s.times.zip s.series := by
    have := mem_zip_get (xs := s.times) (ys := s.series) (s.times.length - 1) (by omega) (by omega)
    rwa [el] at this
  have hx : x0 ≤ xl := hlast _ m0
  obtain ⟨mid, hmid, hmid'⟩ := interpolate_spec s hl hs x0 xl hx0 hxl
    (tv.filter (fun d => decide (x0 ≤ d) && decide (d ≤ xl))) (by intro d hd; simpa using (List.mem_filter.mp hd).2)
  have hls : s.series.getLast? = some (s.series[s.times.length - 1]'(by omega)) := by
    have h : s.series.length - 1 = s.times.length - 1 := by omega
    rw [List.getLast?_eq_getElem?, h, List.getElem?_eq_getElem (by omega)]
  obtain ⟨av, hav⟩ : ∃ av : ℚ, av = if s.extrapolate then s.series[s.times.length - 1]'(by omega) else 0 := ⟨_, rfl⟩
  refine ⟨⟨tv, List.replicate (tv.filter (fun d => decide (d < x0))).length 0 ++ mid ++
    List.replicate (tv.filter (fun d => decide (xl < d))).length av, s.extrapolate, s.interpolation⟩,
    ?_, rfl, rfl, rfl, ?_⟩
  · unfold Series.fit
    rw [hx0, hxl]
    simp only [splitTimeVector, hls, hmid, Bind.bind, Except.bind, Pure.pure, Except.pure]
    cases hex : s.extrapolate <;> simp [hav, hex]
  · simp only
    conv => arg 2; rw [sorted_split tv htv x0 xl hx]
    refine forall₂_append (forall₂_append (forall₂_replicate ?_) (forall₂_imp hmid' ?_)) (forall₂_replicate ?_)
    · intro d hd
      have hd' : d < x0 := by simpa using (List.mem_filter.mp hd).2
      exact Or.inl ⟨fun q hq => by have := hfirst q hq; omega, rfl⟩
    · intro d hd v hv
      have hd' : x0 ≤ d ∧ d ≤ xl := by simpa using (List.mem_filter.mp hd).2
      exact Or.inr (Or.inl ⟨⟨_, m0, hd'.1⟩, ⟨_, ml, hd'.2⟩, hv⟩)
    · intro d hd
      have hd' : xl < d := by simpa using (List.mem_filter.mp hd).2
      refine Or.inr (Or.inr ⟨fun q hq => by have := hlast q hq; omega, ?_⟩)
      cases hex : s.extrapolate with
      | true =>
        simp only [if_true]
        refine ⟨xl, ?_, hlast⟩
        rw [hav, hex]; exact ml
      | false => simp [hav, hex]

/-- The specification only depends on which points there are, not on their order. -/
theorem fitted_congr {pts pts' : List (DateTime × ℚ)} (h : ∀ q, q ∈ pts ↔ q ∈ pts') (ex kind d v) :
    Fitted pts ex kind d v ↔ Fitted pts' ex kind d v := by
  have hf : Follows pts kind d v ↔ Follows pts' kind d v := by
    cases kind <;> simp only [Follows, h]
  simp only [Fitted, h, hf]

/-- **C16.** A series with one value per date, distinct dates in any order, is (after the sorting every series
goes through when it is read) fitted to any ascending time vector so that each entry has the value the rule
gives for its date. -/
theorem C16_fit (s : Series) (hl : s.times.length = s.series.length) (hn : s.times.Nodup) (hne : s.times ≠ [])
    (tv : List DateTime) (htv : tv.Pairwise (· ≤ ·)) :
    ∃ s' r, s.sort = .ok s' ∧ s'.fit tv = .ok r ∧ r.times = tv ∧
      List.Forall₂ (Fitted (s.times.zip s.series) s.extrapolate s.interpolation) tv r.series := by
  obtain ⟨ts, ys, ex, kind⟩ := s
  simp only at hl hn hne ⊢
  generalize hrows : (ts.zip ys).mergeSort (fun a b => decide (a.1 ≤ b.1)) = rows
  have hperm : rows.Perm (ts.zip ys) := by rw [← hrows]; exact List.mergeSort_perm _ _
  have hsort : rows.Pairwise (fun a b => a.1 ≤ b.1) := by
    have := List.pairwise_mergeSort (le := fun (a b : Int × ℚ) => decide (a.1 ≤ b.1))
      (by intro a b c h1 h2; simp at h1 h2 ⊢; omega) (by intro a b; simp; omega) (ts.zip ys)
    rw [hrows] at this
    exact this.imp (by intro a b h; simpa using h)
  have hmapfst : (ts.zip ys).map (·.1) = ts := by rw [List.map_fst_zip]; omega
  have hnd : (rows.map (·.1)).Nodup := by
    have := (hperm.map (·.1)).nodup_iff.mpr (by rw [hmapfst]; exact hn)
    exact this
  have hstrict : (rows.map (·.1)).Pairwise (· < ·) := by
    have h1 : (rows.map (·.1)).Pairwise (· ≤ ·) := by
      rw [List.pairwise_map]; exact hsort
    have h2 : (rows.map (·.1)).Pairwise (· ≠ ·) := hnd
    exact h1.imp₂ (fun a b hle hne => by omega) h2
  have hrne : rows ≠ [] := by
    intro h
    have := hperm.length_eq
    rw [h, List.length_zip] at this
    have := List.length_pos_iff.mpr hne
    simp only [List.length_nil] at *
    omega
  have hzip : (rows.map (·.1)).zip (rows.map (·.2)) = rows := by
    clear * -
    induction rows with
    | nil => rfl
    | cons r rows ih => simp [ih]
  obtain ⟨r, hr, ht, -, -, hf⟩ := fit_sorted ⟨rows.map (·.1), rows.map (·.2), ex, kind⟩ (by simp) hstrict
    (by simpa using hrne) tv htv
  refine ⟨⟨rows.map (·.1), rows.map (·.2), ex, kind⟩, r, ?_, hr, ht, ?_⟩
  · unfold Series.sort
    simp only [hrows]
    rw [if_neg hrne]
  · simp only [hzip] at hf
    exact forall₂_imp hf (fun d _ v hv => (fitted_congr (fun q => hperm.mem_iff) ex kind d v).mp hv)

/-- **C16, the rule determines the value.** For distinct dates there is at most one value by the rule, so
`C16_fit` pins every fitted value down. -/
theorem C16_unique (pts : List (DateTime × ℚ)) (hn : (pts.map (·.1)).Nodup) (hne : pts ≠ []) (ex kind d) (v w : ℚ)
    (hv : Fitted pts ex kind d v) (hw : Fitted pts ex kind d w) : v = w := by
  have huniq : ∀ t a b, (t, a) ∈ pts → (t, b) ∈ pts → a = b := by
    intro t a b ha hb
    obtain ⟨i, hi, ei⟩ := List.mem_iff_getElem.mp ha
    obtain ⟨j, hj, ej⟩ := List.mem_iff_getElem.mp hb
    have : i = j := by
      have h1 : (pts.map (·.1))[i]'(by simpa using hi) = (pts.map (·.1))[j]'(by simpa using hj) := by
        simp [ei, ej]
      have hp := List.pairwise_iff_getElem.mp hn
      rcases Nat.lt_trichotomy i j with h | h | h
      · exact absurd h1 (hp i j (by simpa using hi) (by simpa using hj) h)
      · exact h
      · exact absurd h1.symm (hp j i (by simpa using hj) (by simpa using hi) h)
    subst this
    rw [ei] at ej; simpa using ej
  obtain ⟨q0, hq0⟩ := List.exists_mem_of_ne_nil _ hne
  have hfol : Follows pts kind d v → Follows pts kind d w → v = w := by
    intro hv hw
    cases kind with
    | right =>
      obtain ⟨t, h1, h2, h3⟩ := hv
      obtain ⟨t', h1', h2', h3'⟩ := hw
      have a := h3 _ h1' h2'; have b := h3' _ h1 h2
      simp only at a b
      obtain rfl : t = t' := by omega
      exact huniq _ _ _ h1 h1'
    | left =>
      obtain ⟨t, h1, h2, h3⟩ := hv
      obtain ⟨t', h1', h2', h3'⟩ := hw
      have a := h3 _ h1' h2'; have b := h3' _ h1 h2
      simp only at a b
      obtain rfl : t = t' := by omega
      exact huniq _ _ _ h1 h1'
    | linear =>
      rcases hv with hv | ⟨t0, v0, t1, v1, h1, h2, h3, h4, h5, e⟩
      · rcases hw with hw | ⟨t0, v0, t1, v1, h1, h2, h3, h4, h5, e⟩
        · exact huniq _ _ _ hv hw
        · have := h5 _ hv; simp only at this; omega
      · rcases hw with hw | ⟨t0', v0', t1', v1', h1', h2', h3', h4', h5', e'⟩
        · have := h5 _ hw; simp only at this; omega
        · have a := h5 _ h1'; have b := h5 _ h2'; have a' := h5' _ h1; have b' := h5' _ h2
          simp only at a b a' b'
          obtain rfl : t0 = t0' := by omega
          obtain rfl : t1 = t1' := by omega
          rw [e, e', huniq _ _ _ h1 h1', huniq _ _ _ h2 h2']
  rcases hv with ⟨a, hv⟩ | ⟨⟨q1, a1, b1⟩, ⟨q2, a2, b2⟩, hv⟩ | ⟨a, hv⟩ <;>
  rcases hw with ⟨a', hw⟩ | ⟨⟨q1', a1', b1'⟩, ⟨q2', a2', b2'⟩, hw⟩ | ⟨a', hw⟩
  · rw [hv, hw]
  · have := a _ a1'; omega
  · have := a _ hq0; have := a' _ hq0; omega
  · have := a' _ a1; omega
  · exact hfol hv hw
  · have := a' _ a2; omega
  · have := a _ hq0; have := a' _ hq0; omega
  · have := a _ a2'; omega
  · cases ex with
    | false => simp at hv hw; rw [hv, hw]
    | true =>
      simp only [if_true] at hv hw
      obtain ⟨t, h1, h2⟩ := hv
      obtain ⟨t', h1', h2'⟩ := hw
      have a := h2 _ h1'; have b := h2' _ h1
      simp only at a b
      obtain rfl : t = t' := by omega
      exact huniq _ _ _ h1 h1'

/-- **C16, dates of the series keep their value** under every interpolation rule. -/
theorem C16_exact_at_series_dates (pts : List (DateTime × ℚ)) (ex kind) (d : DateTime) (v : ℚ) (h : (d, v) ∈ pts) :
    Fitted pts ex kind d v := by
  refine Or.inr (Or.inl ⟨⟨_, h, le_refl _⟩, ⟨_, h, le_refl _⟩, ?_⟩)
  cases kind with
  | right => exact ⟨d, h, le_refl _, fun q _ hq => hq⟩
  | left => exact ⟨d, h, le_refl _, fun q _ hq => hq⟩
  | linear => exact Or.inl h

/-- **C16, a series without dates is rejected.** -/
theorem C16_empty_is_error (s : Series) (tv : List DateTime) (h : s.times = []) :
    s.fit tv = .error .indexError ∧ s.sort = .error .indexError := by
  constructor
  · unfold Series.fit; simp [h]
  · unfold Series.sort; simp [h]

/-- Non-vacuity: dates 10, 20, 30 with values 1, 5, 3, linear with extrapolation and constant without. -/
example : ([10, 20, 30] : List Int).Nodup ∧ ([5, 10, 15, 25, 30, 40] : List Int).Pairwise (· ≤ ·) ∧
    (Series.fit ⟨[10, 20, 30], [1, 5, 3], true, .linear⟩ [5, 10, 15, 25, 30, 40]).map (·.series)
      = Except.ok [0, 1, 3, 4, 3, 3] ∧
    (Series.fit ⟨[10, 20, 30], [1, 5, 3], false, .right⟩ [5, 10, 15, 25, 30, 40]).map (·.series)
      = Except.ok [0, 1, 1, 5, 3, 0] := by
  refine ⟨by decide, by decide, by decide +kernel, by decide +kernel⟩

end Verif.C16
