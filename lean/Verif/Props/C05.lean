import Verif.Model.Time
import Verif.Lemmas.ListAux

/-! # C05 — Selecting sub-periods returns exactly the periods inside -/

namespace Verif.C05
open Verif.Time

/-- A well-formed list of consecutive, non-empty periods (what `create_periods` produces from strictly
increasing dates). -/
def WF : List Period → Prop
  | [] => True
  | [p] => p.start < p.stop
  | p :: q :: rest => p.start < p.stop ∧ p.stop = q.start ∧ WF (q :: rest)

instance decWF : (ps : List Period) → Decidable (WF ps)
  | [] => .isTrue trivial
  | [p] => inferInstanceAs (Decidable (p.start < p.stop))
  | p :: q :: rest =>
    have := decWF (q :: rest)
    inferInstanceAs (Decidable (p.start < p.stop ∧ p.stop = q.start ∧ WF (q :: rest)))

/-- Specification: two periods share a moment. -/
def Overlap (p q : Period) : Prop := ∃ t, (p.start ≤ t ∧ t < p.stop) ∧ (q.start ≤ t ∧ t < q.stop)

theorem overlap_iff (p q : Period) : Overlap p q ↔ max p.start q.start < min p.stop q.stop := by
  constructor
  · rintro ⟨t, h1, h2⟩; omega
  · intro h; exact ⟨max p.start q.start, by omega, by omega⟩

instance (p q : Period) : Decidable (Overlap p q) := decidable_of_iff _ (overlap_iff p q).symm

/-- The boundaries of a period list: all start dates and the final end date. -/
def Boundary (ps : List Period) (d : DateTime) : Prop :=
  (∃ p ∈ ps, p.start = d) ∨ (∃ p, ps.getLast? = some p ∧ p.stop = d)

theorem wf_nonempty {ps : List Period} (h : WF ps) : ∀ p ∈ ps, p.start < p.stop := by
  induction ps with
  | nil => simp
  | cons p ps ih =>
    cases ps with
    | nil => simpa [WF] using h
    | cons q ps =>
      obtain ⟨h1, h2, h3⟩ := h
      intro x hx
      rcases List.mem_cons.mp hx with rfl | hx
      · exact h1
      · exact ih h3 x hx

theorem wf_tail {p : Period} {ps : List Period} (h : WF (p :: ps)) : WF ps := by
  cases ps with
  | nil => trivial
  | cons q ps => exact h.2.2

theorem wf_head_le {p : Period} {ps : List Period} (h : WF (p :: ps)) : ∀ q ∈ ps, p.stop ≤ q.start := by
  induction ps generalizing p with
  | nil => simp
  | cons r ps ih =>
    obtain ⟨h1, h2, h3⟩ := h
    intro x hx
    rcases List.mem_cons.mp hx with rfl | hx
    · omega
    · have := ih h3 x hx
      have := wf_nonempty h3 r (by simp)
      omega

theorem wf_pairwise {ps : List Period} (h : WF ps) : ps.Pairwise (fun p q => p.stop ≤ q.start) := by
  induction ps with
  | nil => simp
  | cons p ps ih => exact List.pairwise_cons.mpr ⟨wf_head_le h, ih (wf_tail h)⟩

theorem wf_getElem {ps : List Period} (h : WF ps) (k l : Nat) (hk : k < l) (hl : l < ps.length) :
    (ps[k]).stop ≤ (ps[l]).start :=
  List.pairwise_iff_getElem.mp (wf_pairwise h) k l (by omega) hl hk

theorem wf_first {ps : List Period} (h : WF ps) {f : Period} (hf : ps.head? = some f) :
    ∀ q ∈ ps, f.start ≤ q.start := by
  cases ps with
  | nil => simp
  | cons p ps =>
    simp at hf; subst hf
    intro q hq
    rcases List.mem_cons.mp hq with rfl | hq
    · omega
    · have := wf_head_le h q hq
      have := wf_nonempty h p (by simp)
      omega

theorem wf_last {ps : List Period} (h : WF ps) {l : Period} (hl : ps.getLast? = some l) :
    ∀ q ∈ ps, q.stop ≤ l.stop := by
  intro q hq
  have hne : ps ≠ [] := by rintro rfl; simp at hq
  rw [List.getLast?_eq_getElem?] at hl
  obtain ⟨k, hk, rfl⟩ := List.mem_iff_getElem.mp hq
  have hll : ps.length - 1 < ps.length := by omega
  rw [List.getElem?_eq_getElem hll] at hl
  simp at hl; subst hl
  by_cases e : k = ps.length - 1
  · subst e; omega
  · have := wf_getElem h k (ps.length - 1) (by omega) hll
    have := wf_nonempty h ps[ps.length - 1] (by simp)
    omega

theorem allDates_eq {ps : List Period} {l : Period} (hl : ps.getLast? = some l) :
    Periods.allDates ps = .ok (ps.map (·.start) ++ [l.stop]) := by
  unfold Periods.allDates Periods.endDates Periods.startDates
  simp [List.getLast?_map, hl]

theorem period_eq {ps : List Period} {f l : Period} (hf : ps.head? = some f) (hl : ps.getLast? = some l) :
    Periods.period ps = .ok ⟨f.start, l.stop⟩ := by
  unfold Periods.period; rw [hf, hl]

theorem overlap_at_index {ps : List Period} (hwf : WF ps) {f l p : Period} (hf : ps.head? = some f)
    (hl : ps.getLast? = some l) {i j : Nat}
    (hi : i < (ps.map (·.start)).length) (hi' : (ps.map (·.start))[i] = max p.start f.start)
    (hj : j < (ps.map (·.start) ++ [l.stop]).length)
    (hj' : (ps.map (·.start) ++ [l.stop])[j] = min p.stop l.stop)
    (k : Nat) (hk : k < ps.length) : Overlap p ps[k] ↔ i ≤ k ∧ k < j := by
  rw [overlap_iff]
  have hfk := wf_first hwf hf ps[k] (by simp)
  have hlk := wf_last hwf hl ps[k] (by simp)
  have hne := wf_nonempty hwf ps[k] (by simp)
  simp only [List.length_map] at hi
  simp only [List.length_append, List.length_map, List.length_singleton] at hj
  simp only [List.getElem_map] at hi'
  have hnei := wf_nonempty hwf ps[i] (by simp)
  have hik : i ≤ k ∨ (ps[k]).stop ≤ (ps[i]).start := by
    by_cases h : i ≤ k
    · exact .inl h
    · exact .inr (wf_getElem hwf k i (by omega) hi)
  have hik' : k < i ∨ (ps[i]).start ≤ (ps[k]).start := by
    by_cases h : k < i
    · exact .inl h
    · right
      by_cases e : i = k
      · subst e; omega
      · have := wf_getElem hwf i k (by omega) hk; omega
  by_cases hjl : j < ps.length
  · rw [List.getElem_append_left (by simpa using hjl)] at hj'
    simp only [List.getElem_map] at hj'
    have hkj : k < j → (ps[k]).stop ≤ (ps[j]).start := fun h => wf_getElem hwf k j h hjl
    have hkj' : j ≤ k → (ps[j]).start ≤ (ps[k]).start := by
      intro h
      by_cases e : j = k
      · subst e; omega
      · have := wf_getElem hwf j k (by omega) hk
        have := wf_nonempty hwf ps[j] (by simp)
        omega
    constructor
    · intro h; constructor <;> omega
    · intro h; have := hkj h.2; omega
  · have : j = ps.length := by omega
    subst this
    rw [List.getElem_append_right (by simp)] at hj'
    simp at hj'
    constructor
    · intro h; constructor <;> omega
    · intro h; omega

/-- **C05, success.** If the clipped start and end of `p` are boundaries of the consecutive list `ps`
(and `p` intersects the whole range), the selection is exactly the list of periods overlapping `p`, in
order, and each of them lies completely inside `p`. -/
theorem C05_selects_overlapping (p : Period) (ps : List Period) (f l : Period)
    (hwf : WF ps) (hf : ps.head? = some f) (hl : ps.getLast? = some l)
    (hstart : ∃ q ∈ ps, q.start = max p.start f.start)
    (hend : Boundary ps (min p.stop l.stop))
    (hint : Period.intersects ⟨f.start, l.stop⟩ p = true) :
    Period.getPeriods p ps = .ok (ps.filter (fun q => decide (Overlap p q))) ∧
    ∀ q ∈ ps, Overlap p q → p.start ≤ q.start ∧ q.stop ≤ p.stop := by
  have ⟨i, hi⟩ : ∃ i, (ps.map (·.start)).idxOf? (max p.start f.start) = some i := by
    apply ListAux.idxOf?_isSome
    obtain ⟨q, hq, hq'⟩ := hstart
    simp only [List.mem_map]; exact ⟨q, hq, hq'⟩
  have ⟨j, hj⟩ : ∃ j, (ps.map (·.start) ++ [l.stop]).idxOf? (min p.stop l.stop) = some j := by
    apply ListAux.idxOf?_isSome
    rcases hend with ⟨q, hq, hq'⟩ | ⟨q, hq, hq'⟩
    · simp only [List.mem_append, List.mem_map]; exact .inl ⟨q, hq, hq'⟩
    · rw [hl] at hq; simp at hq; subst hq
      simp [← hq']
  obtain ⟨hi1, hi2⟩ := ListAux.idxOf?_some hi
  obtain ⟨hj1, hj2⟩ := ListAux.idxOf?_some hj
  have key := overlap_at_index (p := p) hwf hf hl hi1 hi2 hj1 hj2
  constructor
  · unfold Period.getPeriods
    rw [period_eq hf hl]
    simp only [bind, Except.bind, hint, if_true]
    unfold Period.getPeriodIndices
    rw [hf, hl]
    simp only [Periods.pyIndex, Periods.startDates, hi, allDates_eq hl, hj]
    simp only [pure, Except.pure, Periods.slice]
    congr 1
    symm
    apply ListAux.filter_eq_slice
    intro k hk
    simp only [decide_eq_true_eq]
    exact key k hk
  · intro q hq ho
    obtain ⟨k, hk, rfl⟩ := List.mem_iff_getElem.mp hq
    have hko := (key k hk).mp ho
    simp only [List.length_map] at hi1
    simp only [List.getElem_map] at hi2
    have h1 : (ps[i]).start ≤ (ps[k]).start := by
      by_cases e : i = k
      · subst e; omega
      · have := wf_getElem hwf i k (by omega) hk
        have := wf_nonempty hwf ps[i] (by simp)
        omega
    have hlk := wf_last hwf hl ps[k] (by simp)
    refine ⟨by omega, ?_⟩
    by_cases hjl : j < ps.length
    · rw [List.getElem_append_left (by simpa using hjl)] at hj2
      simp only [List.getElem_map] at hj2
      have := wf_getElem hwf k j hko.2 hjl
      omega
    · have : j = ps.length := by simp at hj1; omega
      subst this
      rw [List.getElem_append_right (by simp)] at hj2
      simp at hj2
      omega

/-- **C05, error.** If one of the clipped ends is not a boundary, an error is raised (never a wrong slice). -/
theorem C05_misaligned_is_error (p : Period) (ps : List Period) (f l : Period)
    (hf : ps.head? = some f) (hl : ps.getLast? = some l)
    (hint : Period.intersects ⟨f.start, l.stop⟩ p = true)
    (hmis : ¬ (∃ q ∈ ps, q.start = max p.start f.start) ∨ ¬ Boundary ps (min p.stop l.stop)) :
    Period.getPeriods p ps = .error .programmingError := by
  unfold Period.getPeriods
  rw [period_eq hf hl]
  simp only [bind, Except.bind, hint, if_true]
  unfold Period.getPeriodIndices
  rw [hf, hl]
  simp only [Periods.pyIndex, Periods.startDates, allDates_eq hl]
  cases hi : (ps.map (·.start)).idxOf? (max p.start f.start) with
  | none => rfl
  | some i =>
    obtain ⟨hi1, hi2⟩ := ListAux.idxOf?_some hi
    rcases hmis with h | h
    · exfalso; apply h
      simp only [List.getElem_map] at hi2
      exact ⟨_, List.getElem_mem _, hi2⟩
    · cases hj : (ps.map (·.start) ++ [l.stop]).idxOf? (min p.stop l.stop) with
      | none => rfl
      | some j =>
        exfalso; apply h
        obtain ⟨hj1, hj2⟩ := ListAux.idxOf?_some hj
        have hm : min p.stop l.stop ∈ ps.map (·.start) ++ [l.stop] := by
          rw [← hj2]; exact List.getElem_mem _
        simp only [List.mem_append, List.mem_map, List.mem_singleton] at hm
        rcases hm with ⟨q, hq, hq'⟩ | hm
        · exact .inl ⟨q, hq, hq'⟩
        · exact .inr ⟨l, hl, hm.symm⟩

/-- **C05, no overlap.** A non-empty period that shares no moment with any period of the list selects nothing. -/
theorem C05_disjoint_is_empty (p : Period) (ps : List Period) (hwf : WF ps)
    (hp : p.start < p.stop) (f l : Period) (hf : ps.head? = some f) (hl : ps.getLast? = some l)
    (hdis : ∀ t, ¬ ((p.start ≤ t ∧ t < p.stop) ∧ (f.start ≤ t ∧ t < l.stop))) :
    Period.getPeriods p ps = .ok [] := by
  unfold Period.getPeriods
  rw [period_eq hf hl]
  have hfl : f.start < l.stop := by
    have h1 := wf_nonempty hwf f (List.mem_of_head? hf)
    have h2 := wf_last hwf hl f (List.mem_of_head? hf)
    omega
  have : Period.intersects ⟨f.start, l.stop⟩ p = false := by
    unfold Period.intersects Period.containsDate
    have a := hdis p.start
    have b := hdis f.start
    simp only [Bool.or_eq_false_iff, Bool.and_eq_false_iff, decide_eq_false_iff_not]
    omega
  simp [bind, Except.bind, this, pure, Except.pure]

/-- The empty period list is an error (IndexError). -/
theorem C05_empty_is_error (p : Period) : Period.getPeriods p [] = .error .indexError := rfl

/-- Non-vacuity: selecting [3,9) from 0-3-6-9-12. -/
example : WF [⟨0, 3⟩, ⟨3, 6⟩, ⟨6, 9⟩, ⟨9, 12⟩] ∧
    Period.getPeriods ⟨3, 9⟩ [⟨0, 3⟩, ⟨3, 6⟩, ⟨6, 9⟩, ⟨9, 12⟩] = .ok [⟨3, 6⟩, ⟨6, 9⟩] ∧
    (∃ q ∈ ([⟨0, 3⟩, ⟨3, 6⟩, ⟨6, 9⟩, ⟨9, 12⟩] : List Period), q.start = max 3 0) ∧
    Boundary [⟨0, 3⟩, ⟨3, 6⟩, ⟨6, 9⟩, ⟨9, 12⟩] (min 9 12) ∧
    Period.intersects ⟨0, 12⟩ ⟨3, 9⟩ = true := by
  refine ⟨by simp [WF], by rfl, ⟨⟨3, 6⟩, by simp, by decide⟩, .inl ⟨⟨9, 12⟩, by simp, by decide⟩, by decide⟩

end Verif.C05
