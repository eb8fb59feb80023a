import Verif.Props.C07
import Verif.Props.C05
import Verif.Lemmas.ListAux
import Verif.Lemmas.Dict

/-! # C13 — Slicing a time series to sub-periods and extending back restores it -/

namespace Verif.C13
open Verif.Time Verif.Units Verif.Rates Verif.RateLemmas Verif.C05 Verif.ListAux Verif.DictLemmas

/-- Specification: `q` lies inside `p`. -/
def Inside (p q : Period) : Prop := p.start ≤ q.start ∧ q.stop ≤ p.stop

instance (p q : Period) : Decidable (Inside p q) := by unfold Inside; infer_instance

/-- Specification: the (period, value) pairs of a series. -/
def pairs {α : Type} (s : TS α) : List (Period × α) := s.periods.zip s.values

/-- One value per period. -/
def OnePerPeriod {α : Type} (s : TS α) : Prop := s.periods.length = s.values.length

/-- Specification: (period, value, regularity) triples of a rate series. -/
def triples (s : RateTS) : List (Period × Fl × Fl) := s.periods.zip (s.values.zip s.regularity)

theorem make_ok {α : Type} {ps : Periods} {vs : List α} {u : EUnit} (h : ps.length = vs.length) :
    TS.make ps vs u = .ok ⟨ps, vs, u⟩ := by simp [TS.make, h]

theorem make_one {α : Type} {ps : Periods} {vs : List α} {u : EUnit} {s : TS α} (h : TS.make ps vs u = .ok s) :
    OnePerPeriod s := by
  unfold TS.make at h
  split at h
  · simp only [Except.ok.injEq] at h; subst h; assumption
  · simp at h

theorem slice_length {α β : Type} {xs : List α} {ys : List β} (h : xs.length = ys.length) (i j : Nat) :
    (Periods.slice xs i j).length = (Periods.slice ys i j).length := by
  simp [Periods.slice, h]

theorem wf_split {ps : Periods} (hw : WF ps) (k : Nat) (a b : Period) (ha : (ps.take k).getLast? = some a)
    (hb : (ps.drop k).head? = some b) : a.stop = b.start := by
  induction ps generalizing k with
  | nil => simp at ha
  | cons p ps ih =>
    cases k with
    | zero => simp at ha
    | succ k =>
      cases ps with
      | nil => simp at hb
      | cons q ps =>
        cases k with
        | zero => simp at ha hb; subst ha hb; exact hw.2.1
        | succ k =>
          apply ih hw.2.2 (k + 1) _ (by simpa using hb)
          simp only [List.take_succ_cons, List.getLast?_cons_cons] at ha ⊢
          exact ha

theorem boundary_mem {ps : Periods} {l : Period} (d : DateTime)
    (h : d ∈ ps.map (·.start) ++ [l.stop]) : (∃ q ∈ ps, q.start = d) ∨ d = l.stop := by
  simp only [List.mem_append, List.mem_map, List.mem_singleton] at h
  exact h

theorem period_indices {ps : Periods} (hw : WF ps) {f l p : Period} (hf : ps.head? = some f)
    (hl : ps.getLast? = some l) (hs : p.start ∈ ps.map (·.start) ++ [l.stop])
    (he : p.stop ∈ ps.map (·.start) ++ [l.stop]) (hp : p.start < p.stop) :
    ∃ i j, Period.getPeriodIndices p ps = .ok (i, j) ∧
      ∀ (k : Nat) (hk : k < ps.length), Inside p ps[k] ↔ i ≤ k ∧ k < j := by
  have hmem : ∀ d ∈ ps.map (·.start) ++ [l.stop], f.start ≤ d ∧ d ≤ l.stop := by
    intro d hd
    rcases boundary_mem d hd with ⟨q, hq, rfl⟩ | rfl
    · have h1 := wf_first hw hf q hq
      have h2 := wf_last hw hl q hq
      have h3 := wf_nonempty hw q hq
      omega
    · have h1 := wf_first hw hf l (List.mem_of_getLast? hl)
      have h3 := wf_nonempty hw l (List.mem_of_getLast? hl)
      omega
  have e1 : max p.start f.start = p.start := by have := hmem _ hs; omega
  have e2 : min p.stop l.stop = p.stop := by have := hmem _ he; omega
  have hs' : p.start ∈ ps.map (·.start) := by
    rcases boundary_mem _ hs with ⟨q, hq, h⟩ | h
    · exact List.mem_map.mpr ⟨q, hq, h⟩
    · have := hmem _ he; omega
  obtain ⟨i, hi⟩ := idxOf?_isSome hs'
  obtain ⟨j, hj⟩ := idxOf?_isSome he
  refine ⟨i, j, ?_, ?_⟩
  · unfold Period.getPeriodIndices
    simp only [hf, hl, allDates_eq hl, Periods.pyIndex, Periods.startDates, e1, e2, hi, hj]
  · intro k hk
    obtain ⟨hi1, hi2⟩ := idxOf?_some hi
    obtain ⟨hj1, hj2⟩ := idxOf?_some hj
    have := overlap_at_index hw hf hl (p := p) hi1 (by rw [hi2, e1]) hj1 (by rw [hj2, e2]) k hk
    rw [← this]
    constructor
    · intro h
      have := wf_nonempty hw ps[k] (by simp)
      rw [overlap_iff]
      unfold Inside at h
      omega
    · intro h
      have hint : Period.intersects ⟨f.start, l.stop⟩ p = true := by
        unfold Period.intersects Period.containsDate
        simp
        have := hmem _ hs; have := hmem _ he
        omega
      have hst : ∃ q ∈ ps, q.start = max p.start f.start := by
        rw [e1]; obtain ⟨q, hq, h⟩ := List.mem_map.mp hs'; exact ⟨q, hq, h⟩
      have hen : Boundary ps (min p.stop l.stop) := by
        rw [e2]
        rcases boundary_mem _ he with h | h
        · exact Or.inl h
        · exact Or.inr ⟨l, hl, h.symm⟩
      exact (C05_selects_overlapping p ps f l hw hf hl hst hen hint).2 ps[k] (by simp) h

theorem zip_slice {α β : Type} (xs : List α) (ys : List β) (i j : Nat) :
    (Periods.slice xs i j).zip (Periods.slice ys i j) = Periods.slice (xs.zip ys) i j := by
  simp [Periods.slice, List.zip, List.take_zipWith, List.drop_zipWith]

/-- **C13, cut and extend.** Cutting a series at any position and extending the first part with the second
gives the series back. -/
theorem C13_cut_extend {α : Type} (s : TS α) (hw : WF s.periods) (hone : OnePerPeriod s) (k : Nat) :
    ∃ a b, s.getSlice 0 k = .ok a ∧ s.getSlice k s.periods.length = .ok b ∧ a.extend b = .ok s := by
  obtain ⟨ps, vs, u⟩ := s
  unfold OnePerPeriod at hone
  simp only at hw hone
  refine ⟨⟨ps.take k, vs.take k, u⟩, ⟨ps.drop k, vs.drop k, u⟩, ?_, ?_, ?_⟩
  · simp [TS.getSlice, Periods.slice, TS.make, hone]
  · simp only [TS.getSlice, Periods.slice, List.take_length]
    rw [hone, List.take_length]
    exact make_ok (by simp [hone])
  · unfold TS.extend
    simp only [ne_eq, not_true_eq_false, if_false]
    by_cases hc : (vs.take k).length > 0 ∧ (vs.drop k).length > 0
    · rw [if_pos hc]
      obtain ⟨h1, h2⟩ := hc
      have n1 : ps.take k ≠ [] := by
        intro h; have := congrArg List.length h; simp at this h1; rcases this with h | h
        · omega
        · subst h; simp at hone; omega
      have n2 : ps.drop k ≠ [] := by
        intro h; have := congrArg List.length h; simp at this h2; omega
      have hsplit := wf_split hw k ((ps.take k).getLast n1) ((ps.drop k).head n2)
        (List.getLast?_eq_some_getLast n1) (List.head?_eq_some_head n2)
      simp only [TS.firstDate, TS.lastDate, Periods.period, List.getLast?_eq_some_getLast n1,
        List.getLast?_eq_some_getLast n2, List.head?_eq_some_head n1, List.head?_eq_some_head n2,
        Except.map, Bind.bind, Except.bind, hsplit, not_true_eq_false, false_and, if_false, if_true,
        List.take_append_drop]
      exact make_ok hone
    · rw [if_neg hc]
      have : ps.drop k ++ ps.take k = ps ∧ vs.drop k ++ vs.take k = vs := by
        rcases Nat.lt_or_ge k vs.length with h | h
        · have : k = 0 := by simp at hc; omega
          subst this; simp
        · have h' : ps.length ≤ k := by omega
          simp [List.drop_eq_nil_of_le h, List.drop_eq_nil_of_le h', List.take_of_length_le h,
            List.take_of_length_le h']
      rw [this.1, this.2]
      exact make_ok hone

/-- **C13, restriction to a period.** Restricting a series to a period between two of its dates returns
exactly the periods inside, each with its own value. -/
theorem C13_for_period {α : Type} (s : TS α) (hw : WF s.periods) (hone : OnePerPeriod s) (l p : Period)
    (hl : s.periods.getLast? = some l) (hs : p.start ∈ s.periods.map (·.start) ++ [l.stop])
    (he : p.stop ∈ s.periods.map (·.start) ++ [l.stop]) (hp : p.start < p.stop) :
    ∃ r, s.forPeriod p = .ok r ∧ OnePerPeriod r ∧ r.unit = s.unit ∧
      pairs r = (pairs s).filter (fun x => decide (Inside p x.1)) := by
  obtain ⟨ps, vs, u⟩ := s
  unfold OnePerPeriod at hone
  simp only at hw hone hl hs he
  have hne : ps ≠ [] := by rintro rfl; simp at hl
  obtain ⟨i, j, hij, hk⟩ := period_indices hw (List.head?_eq_some_head hne) hl hs he hp
  refine ⟨⟨Periods.slice ps i j, Periods.slice vs i j, u⟩, ?_, slice_length hone i j, rfl, ?_⟩
  · unfold TS.forPeriod
    simp only [allDates_eq hl, Bind.bind, Except.bind]
    rw [if_neg (by tauto)]
    simp only [hij]
    exact make_ok (slice_length hone i j)
  · unfold pairs
    rw [zip_slice]
    symm
    apply filter_eq_slice
    intro k hklt
    simp only [List.getElem_zip, decide_eq_true_eq]
    exact hk k (by simp at hklt; omega)

/-- **C13, restriction at a date that is not a boundary is rejected.** -/
theorem C13_for_period_misaligned {α : Type} (s : TS α) (l p : Period) (hl : s.periods.getLast? = some l)
    (h : p.start ∉ s.periods.map (·.start) ++ [l.stop] ∨ p.stop ∉ s.periods.map (·.start) ++ [l.stop]) :
    s.forPeriod p = .error .valueError := by
  unfold TS.forPeriod
  simp only [allDates_eq hl, Bind.bind, Except.bind]
  rw [if_pos h]

/-- **C13, restricting before and after a date, then extending.** -/
theorem C13_split_at_date {α : Type} (s : TS α) (hw : WF s.periods) (hone : OnePerPeriod s) (f l : Period)
    (hf : s.periods.head? = some f) (hl : s.periods.getLast? = some l) (d : DateTime)
    (hd : ∃ q ∈ s.periods, q.start = d) (hd' : f.start < d) :
    ∃ a b, s.forPeriod ⟨f.start, d⟩ = .ok a ∧ s.forPeriod ⟨d, l.stop⟩ = .ok b ∧ a.extend b = .ok s := by
  obtain ⟨ps, vs, u⟩ := s
  unfold OnePerPeriod at hone
  simp only at hw hone hf hl hd
  obtain ⟨q, hq, rfl⟩ := hd
  have hne : ps ≠ [] := by rintro rfl; simp at hl
  have hfm : f.start ∈ ps.map (·.start) ++ [l.stop] := by
    simp only [List.mem_append, List.mem_map]; exact Or.inl ⟨f, List.mem_of_head? hf, rfl⟩
  have hqm : q.start ∈ ps.map (·.start) ++ [l.stop] := by
    simp only [List.mem_append, List.mem_map]; exact Or.inl ⟨q, hq, rfl⟩
  have hlm : l.stop ∈ ps.map (·.start) ++ [l.stop] := by simp
  have hql : q.start < l.stop := by
    have := wf_nonempty hw q hq; have := wf_last hw hl q hq; omega
  obtain ⟨k, hk, hkq⟩ := List.mem_iff_getElem.mp hq
  have hn := wf_nonempty hw
  -- periods before index k end at or before the cut, the others start at or after it
  have hbefore : ∀ (m : Nat) (hm : m < ps.length), Inside ⟨f.start, q.start⟩ ps[m] ↔ 0 ≤ m ∧ m < k := by
    intro m hm
    have h1 := wf_first hw hf ps[m] (by simp)
    have h2 := hn ps[m] (by simp)
    unfold Inside
    simp only
    constructor
    · rintro ⟨-, h⟩
      refine ⟨Nat.zero_le _, ?_⟩
      by_contra hc
      rcases Nat.lt_or_eq_of_le (show k ≤ m by omega) with h' | h'
      · have := wf_getElem hw k m h' hm
        have := hn q hq
        rw [hkq] at *; omega
      · subst h'; rw [hkq] at *; omega
    · rintro ⟨-, h⟩
      refine ⟨h1, ?_⟩
      have := wf_getElem hw m k h hk
      rw [hkq] at this; exact this
  have hafter : ∀ (m : Nat) (hm : m < ps.length), Inside ⟨q.start, l.stop⟩ ps[m] ↔ k ≤ m ∧ m < ps.length := by
    intro m hm
    have h1 := wf_last hw hl ps[m] (by simp)
    have h2 := hn ps[m] (by simp)
    unfold Inside
    simp only
    constructor
    · rintro ⟨h, -⟩
      refine ⟨?_, hm⟩
      by_contra hc
      have := wf_getElem hw m k (by omega) hk
      rw [hkq] at this; omega
    · rintro ⟨h, -⟩
      refine ⟨?_, h1⟩
      rcases Nat.lt_or_eq_of_le h with h' | h'
      · have := wf_getElem hw k m h' hm
        have := hn q hq
        rw [hkq] at *; omega
      · subst h'; rw [hkq]
  obtain ⟨a, b, ha, hb, hab⟩ := C13_cut_extend ⟨ps, vs, u⟩ hw hone k
  have hsl : ∀ (i j i' j' : Nat), (∀ m (hm : m < ps.length), (i ≤ m ∧ m < j) ↔ (i' ≤ m ∧ m < j')) →
      Periods.slice ps i j = Periods.slice ps i' j' ∧ Periods.slice vs i j = Periods.slice vs i' j' := by
    intro i j i' j' h
    have gen : ∀ {γ : Type} (xs : List γ), xs.length = ps.length → Periods.slice xs i j = Periods.slice xs i' j' := by
      intro γ xs hx
      have ext : ∀ {γ : Type} (xs : List γ) (i j i' j' : Nat),
          (∀ m (hm : m < xs.length), (i ≤ m ∧ m < j) ↔ (i' ≤ m ∧ m < j')) →
          (xs.take j).drop i = (xs.take j').drop i' := by
        intro γ xs
        induction xs with
        | nil => intro i j i' j' _; simp
        | cons x xs ih =>
          intro i j i' j' h
          have h0 := h 0 (by simp)
          have hs : ∀ m, m < xs.length → ((i - 1 ≤ m ∧ m < j - 1) ↔ (i' - 1 ≤ m ∧ m < j' - 1)) := by
            intro m hm
            have := h (m + 1) (by simp; omega)
            omega
          have := ih (i - 1) (j - 1) (i' - 1) (j' - 1) hs
          have step : ∀ i j, ¬ (i ≤ 0 ∧ 0 < j) →
              ((x :: xs).take j).drop i = (xs.take (j - 1)).drop (i - 1) := by
            intro i j h
            cases i <;> cases j <;> simp_all
          by_cases hc : i ≤ 0 ∧ 0 < j
          · obtain ⟨c1, c2⟩ := hc
            obtain ⟨c3, c4⟩ := h0.mp ⟨c1, c2⟩
            obtain rfl : i = 0 := by omega
            obtain rfl : i' = 0 := by omega
            obtain ⟨j, rfl⟩ : ∃ m, j = m + 1 := ⟨j - 1, by omega⟩
            obtain ⟨j', rfl⟩ : ∃ m, j' = m + 1 := ⟨j' - 1, by omega⟩
            simpa using this
          · rw [step i j hc, step i' j' (fun h => hc (h0.mpr h)), this]
      exact ext xs i j i' j' (fun m hm => h m (by omega))
    exact ⟨gen ps rfl, gen vs hone.symm⟩
  have fp : ∀ (p : Period) (i' j' : Nat), p.start ∈ ps.map (·.start) ++ [l.stop] →
      p.stop ∈ ps.map (·.start) ++ [l.stop] → p.start < p.stop →
      (∀ (m : Nat) (hm : m < ps.length), Inside p ps[m] ↔ i' ≤ m ∧ m < j') →
      TS.forPeriod ⟨ps, vs, u⟩ p = TS.getSlice ⟨ps, vs, u⟩ i' j' := by
    intro p i' j' h1 h2 h3 h4
    obtain ⟨i, j, hij, hk⟩ := period_indices hw hf hl h1 h2 h3
    have := hsl i j i' j' (fun m hm => (hk m hm).symm.trans (h4 m hm))
    unfold TS.forPeriod TS.getSlice
    simp only [allDates_eq hl, Bind.bind, Except.bind]
    rw [if_neg (by tauto)]
    simp only [hij, this.1, this.2]
  refine ⟨a, b, ?_, ?_, hab⟩
  · rw [fp ⟨f.start, q.start⟩ 0 k hfm hqm hd' hbefore]; exact ha
  · rw [fp ⟨q.start, l.stop⟩ k ps.length hqm hlm hql hafter]; exact hb

/-- **C13, the order of extending does not matter** for two non-empty series that touch at one end: the
earlier one comes first either way. -/
theorem C13_extend_chronological {α : Type} (s o : TS α) (hs : OnePerPeriod s) (ho : OnePerPeriod o)
    (hu : s.unit = o.unit) (ws : WF s.periods) (wo : WF o.periods) (l f : Period)
    (hl : s.periods.getLast? = some l) (hf : o.periods.head? = some f) (ht : l.stop = f.start) :
    s.extend o = .ok ⟨s.periods ++ o.periods, s.values ++ o.values, s.unit⟩ ∧
    o.extend s = .ok ⟨s.periods ++ o.periods, s.values ++ o.values, s.unit⟩ := by
  obtain ⟨ps, vs, u⟩ := s
  obtain ⟨qs, ws', u'⟩ := o
  unfold OnePerPeriod at hs ho
  simp only at hs ho hu ws wo hl hf
  subst hu
  have n1 : ps ≠ [] := by rintro rfl; simp at hl
  have n2 : qs ≠ [] := by rintro rfl; simp at hf
  have p1 := List.length_pos_iff.mpr n1
  have p2 := List.length_pos_iff.mpr n2
  have a1 := wf_first ws (List.head?_eq_some_head n1) l (List.mem_of_getLast? hl)
  have a2 := wf_nonempty ws l (List.mem_of_getLast? hl)
  have b1 := wf_last wo (List.getLast?_eq_some_getLast n2) f (List.mem_of_head? hf)
  have b2 := wf_nonempty wo f (List.mem_of_head? hf)
  have hmk : TS.make (ps ++ qs) (vs ++ ws') u = .ok ⟨ps ++ qs, vs ++ ws', u⟩ := make_ok (by simp [hs, ho])
  constructor
  · unfold TS.extend
    simp only [ne_eq, not_true_eq_false, if_false]
    rw [if_pos (by omega)]
    simp only [TS.firstDate, TS.lastDate, Periods.period, hl, hf, List.getLast?_eq_some_getLast n2,
      List.head?_eq_some_head n1, Except.map, Bind.bind, Except.bind, ht, not_true_eq_false, false_and,
      if_false, if_true, hmk]
  · unfold TS.extend
    simp only [ne_eq, not_true_eq_false, if_false]
    rw [if_pos (by omega)]
    simp only [TS.firstDate, TS.lastDate, Periods.period, hl, hf, List.getLast?_eq_some_getLast n2,
      List.head?_eq_some_head n1, Except.map, Bind.bind, Except.bind]
    rw [if_neg (by omega), if_neg (by omega)]
    exact hmk

/-- **C13, a gap is rejected**: two non-empty series that touch at neither end cannot be joined; nor can
series of different units. -/
theorem C13_extend_gap_rejected {α : Type} (s o : TS α) (hs : OnePerPeriod s) (ho : OnePerPeriod o)
    (f1 l1 f2 l2 : Period)
    (hf1 : s.periods.head? = some f1) (hl1 : s.periods.getLast? = some l1)
    (hf2 : o.periods.head? = some f2) (hl2 : o.periods.getLast? = some l2)
    (h : s.unit ≠ o.unit ∨ (l1.stop ≠ f2.start ∧ l2.stop ≠ f1.start)) :
    s.extend o = .error .valueError := by
  obtain ⟨ps, vs, u⟩ := s
  obtain ⟨qs, ws', u'⟩ := o
  unfold OnePerPeriod at hs ho
  simp only at hs ho hf1 hl1 hf2 hl2 h
  have n1 : ps ≠ [] := by rintro rfl; simp at hl1
  have n2 : qs ≠ [] := by rintro rfl; simp at hf2
  have p1 := List.length_pos_iff.mpr n1
  have p2 := List.length_pos_iff.mpr n2
  unfold TS.extend
  by_cases hu : u = u'
  · subst hu
    simp only [ne_eq, not_true_eq_false, if_false, false_or] at h ⊢
    rw [if_pos (by omega)]
    simp only [TS.firstDate, TS.lastDate, Periods.period, hl1, hf1, hl2, hf2, Except.map, Bind.bind, Except.bind]
    rw [if_pos ⟨h.1, fun e => h.2 e.symm⟩]
  · simp [hu]

/-- **C13, merge** joins two touching series chronologically in either order. -/
theorem C13_merge_chronological {α : Type} (s o : TS α) (hs : OnePerPeriod s) (ho : OnePerPeriod o)
    (hu : s.unit = o.unit) (ws : WF s.periods) (wo : WF o.periods) (l f : Period)
    (hl : s.periods.getLast? = some l) (hf : o.periods.head? = some f) (ht : l.stop = f.start) :
    s.merge o = .ok ⟨s.periods ++ o.periods, s.values ++ o.values, s.unit⟩ ∧
    o.merge s = .ok ⟨s.periods ++ o.periods, s.values ++ o.values, s.unit⟩ := by
  obtain ⟨ps, vs, u⟩ := s
  obtain ⟨qs, ws', u'⟩ := o
  unfold OnePerPeriod at hs ho
  simp only at hs ho hu ws wo hl hf
  subst hu
  have n1 : ps ≠ [] := by rintro rfl; simp at hl
  have n2 : qs ≠ [] := by rintro rfl; simp at hf
  have a1 := wf_first ws (List.head?_eq_some_head n1) l (List.mem_of_getLast? hl)
  have a2 := wf_nonempty ws l (List.mem_of_getLast? hl)
  have b1 := wf_last wo (List.getLast?_eq_some_getLast n2) f (List.mem_of_head? hf)
  have b2 := wf_nonempty wo f (List.mem_of_head? hf)
  have hmk : TS.make (ps ++ qs) (vs ++ ws') u = .ok ⟨ps ++ qs, vs ++ ws', u⟩ := make_ok (by simp [hs, ho])
  constructor
  · unfold TS.merge
    simp only [ne_eq, not_true_eq_false, if_false, Periods.period, hl, hf, List.getLast?_eq_some_getLast n2,
      List.head?_eq_some_head n1, Bind.bind, Except.bind, Period.intersects, Period.containsDate]
    rw [if_neg (by simp; omega), if_neg (by omega), if_pos (by omega)]
    exact hmk
  · unfold TS.merge
    simp only [ne_eq, not_true_eq_false, if_false, Periods.period, hl, hf, List.getLast?_eq_some_getLast n2,
      List.head?_eq_some_head n1, Bind.bind, Except.bind, Period.intersects, Period.containsDate]
    rw [if_neg (by simp; omega), if_neg (by omega), if_neg (by omega)]
    exact hmk

/-- **C13, merge rejects** different units, series that share a moment, and series with a gap in between. -/
theorem C13_merge_rejected {α : Type} (s o : TS α) (f1 l1 f2 l2 : Period)
    (hf1 : s.periods.head? = some f1) (hl1 : s.periods.getLast? = some l1)
    (hf2 : o.periods.head? = some f2) (hl2 : o.periods.getLast? = some l2)
    (h : s.unit ≠ o.unit ∨ Overlap ⟨f1.start, l1.stop⟩ ⟨f2.start, l2.stop⟩ ∨
      l1.stop < f2.start ∨ l2.stop < f1.start) (w1 : f1.start < l1.stop) (w2 : f2.start < l2.stop) :
    s.merge o = .error .valueError := by
  unfold TS.merge
  by_cases hu : s.unit = o.unit
  · simp only [hu, ne_eq, not_true_eq_false, if_false, Periods.period, hl1, hf1, hl2, hf2, Bind.bind, Except.bind,
      Period.intersects, Period.containsDate]
    rcases h with h | h | h
    · exact absurd hu h
    · rw [overlap_iff] at h
      rw [if_pos (by simp; simp at h; omega)]
    · rw [if_neg (by simp; omega), if_pos (by omega)]
  · simp [hu]

/-- **C13, number of values equals number of periods** after every operation that succeeds. -/
theorem C13_one_value_per_period {α : Type} (s o r : TS α) (p : Period) (ps : Periods) (i j : Nat) (fill : α)
    (h : s.extend o = .ok r ∨ s.merge o = .ok r ∨ s.forPeriod p = .ok r ∨ s.forPeriods ps = .ok r ∨
      s.getSlice i j = .ok r ∨ s.fillValuesForNewPeriods ps fill = .ok r) : OnePerPeriod r := by
  rcases h with h | h | h | h | h | h
  · unfold TS.extend at h
    split at h
    · simp at h
    · split at h
      · simp only [Bind.bind, Except.bind] at h
        repeat' split at h
        all_goals first | (simp at h) | exact make_one h
      · exact make_one h
  · unfold TS.merge at h
    simp only [Bind.bind, Except.bind] at h
    repeat' split at h
    all_goals first | (simp at h) | exact make_one h
  · unfold TS.forPeriod at h
    simp only [Bind.bind, Except.bind] at h
    repeat' split at h
    all_goals first | (simp at h) | exact make_one h
  · unfold TS.forPeriods at h
    simp only [Bind.bind, Except.bind] at h
    repeat' split at h
    all_goals first | (simp at h) | exact make_one h
  · exact make_one h
  · unfold TS.fillValuesForNewPeriods at h
    split at h
    · exact make_one h
    · simp at h

/-- **C13, filling new periods.** A series spread over more periods keeps the value of each of its own periods and has
the fill value in the others; a series with a period that is not among the new ones is rejected. -/
theorem C13_fill {α : Type} (s : TS α) (hone : OnePerPeriod s) (hn : s.periods.Nodup) (ps : Periods) (hps : ps.Nodup)
    (fill : α) :
    ((∀ p ∈ s.periods, p ∈ ps) → ∃ r, s.fillValuesForNewPeriods ps fill = .ok r ∧ r.periods = ps ∧ r.unit = s.unit ∧
      r.values = ps.map fun p => ((pairs s).lookup p).getD fill) ∧
    ((∃ p ∈ s.periods, p ∉ ps) → s.fillValuesForNewPeriods ps fill = .error .valueError) := by
  constructor
  · intro hsub
    have hall : (s.periods.all fun p => decide (p ∈ ps)) = true := by simpa using hsub
    have hkeys : (pairs s).map (·.1) = s.periods := by
      unfold pairs
      rw [List.map_fst_zip]
      exact le_of_eq hone
    have hcond : ∀ (l d : List (Period × α)), (∀ pv ∈ l, pv.1 ∈ d.map (·.1)) →
        l.foldl (fun d pv => if pv.1 ∈ d.map (·.1) then dictSet pv.1 pv.2 d else d) d = setAll d l := by
      intro l
      induction l with
      | nil => intro d _; rfl
      | cons x l ih =>
        intro d hd
        rw [List.foldl_cons, if_pos (hd x (by simp)), ih]
        · rfl
        · intro pv hpv
          rw [keys_dictSet, if_pos (hd x (by simp))]
          exact hd pv (by simp [hpv])
    have h0 : ps.foldl (fun d p => dictSet p fill d) ([] : List (Period × α)) = setAll [] (ps.map fun p => (p, fill)) := by
      unfold setAll
      rw [List.foldl_map]
    have hover := setAll_over hps fill (d := pairs s) (by rw [hkeys]; exact hn) fun pv hpv =>
      hsub _ (by rw [← hkeys]; exact List.mem_map_of_mem hpv)
    refine ⟨⟨ps, ps.map fun p => ((pairs s).lookup p).getD fill, s.unit⟩, ?_, rfl, rfl, rfl⟩
    unfold TS.fillValuesForNewPeriods
    simp only [hall, if_true]
    rw [h0, hcond _ _ ?_]
    · change TS.make ps ((setAll (setAll [] (ps.map fun p => (p, fill))) (pairs s)).map (·.2)) s.unit = _
      rw [hover, List.map_map]
      exact make_ok (by simp)
    · intro pv hpv
      rw [keys_setAll, mem_addKeys]
      right
      simp only [List.map_map, Function.comp_def, List.map_id']
      exact hsub _ (by rw [← hkeys]; exact List.mem_map_of_mem hpv)
  · rintro ⟨p, h1, h2⟩
    unfold TS.fillValuesForNewPeriods
    rw [if_neg]
    intro h
    rw [List.all_eq_true] at h
    exact h2 (by simpa using h p h1)

/-- **C13, rate series: cut and extend.** -/
theorem C13_rate_cut_extend (s : RateTS) (hone : C07.OnePerPeriod s) (k : Nat) :
    ∃ a b, s.getSlice 0 k = .ok a ∧ s.getSlice k s.periods.length = .ok b ∧ a.extend b = .ok s := by
  obtain ⟨ps, vs, u, rt, reg⟩ := s
  obtain ⟨h1, h2⟩ := hone
  simp only at h1 h2
  refine ⟨⟨ps.take k, vs.take k, u, rt, reg.take k⟩, ⟨ps.drop k, vs.drop k, u, rt, reg.drop k⟩, ?_, ?_, ?_⟩
  · simp [RateTS.getSlice, Periods.slice, RateTS.make, ← h1, ← h2]
  · simp [RateTS.getSlice, Periods.slice, RateTS.make, ← h1, ← h2]
    constructor
    · rw [h1]; simp
    · rw [h2]; simp
  · simp [RateTS.extend, RateTS.make, h1]
    omega

/-- **C13, rate series: restriction to a period** between two of its dates keeps value and regularity with
each period inside. -/
theorem C13_rate_for_period (s : RateTS) (hw : WF s.periods) (hone : C07.OnePerPeriod s) (l p : Period)
    (hl : s.periods.getLast? = some l) (hs : p.start ∈ s.periods.map (·.start) ++ [l.stop])
    (he : p.stop ∈ s.periods.map (·.start) ++ [l.stop]) (hp : p.start < p.stop) :
    ∃ r, s.forPeriod p = .ok r ∧ C07.OnePerPeriod r ∧ r.unit = s.unit ∧ r.rateType = s.rateType ∧
      triples r = (triples s).filter (fun x => decide (Inside p x.1)) := by
  obtain ⟨ps, vs, u, rt, reg⟩ := s
  obtain ⟨h1, h2⟩ := hone
  simp only at hw h1 h2 hl hs he
  have hne : ps ≠ [] := by rintro rfl; simp at hl
  have hf := List.head?_eq_some_head hne
  obtain ⟨i, j, hij, hk⟩ := period_indices hw hf hl hs he hp
  have l1 := slice_length h1 i j
  have l2 := slice_length h2 i j
  have hfl := wf_first hw hf
  refine ⟨⟨Periods.slice ps i j, Periods.slice vs i j, u, rt, Periods.slice reg i j⟩, ?_, ⟨l1, l2⟩, rfl, rfl, ?_⟩
  · unfold RateTS.forPeriod
    have hint : Period.intersects ⟨(ps.head hne).start, l.stop⟩ p = true := by
      have hmem : ∀ d ∈ ps.map (·.start) ++ [l.stop], (ps.head hne).start ≤ d ∧ d ≤ l.stop := by
        intro d hd
        rcases boundary_mem d hd with ⟨q, hq, rfl⟩ | rfl
        · have h1 := wf_first hw hf q hq
          have h2 := wf_last hw hl q hq
          have h3 := wf_nonempty hw q hq
          omega
        · have h1 := wf_first hw hf l (List.mem_of_getLast? hl)
          have h3 := wf_nonempty hw l (List.mem_of_getLast? hl)
          omega
      have := hmem _ hs; have := hmem _ he
      unfold Period.intersects Period.containsDate
      simp
      omega
    simp only [period_eq hf hl, Bind.bind, Except.bind, hint, Bool.not_true, Bool.false_eq_true, if_false, hij]
    simp [RateTS.make, ← l1, ← l2]
  · unfold triples
    simp only
    rw [zip_slice, zip_slice]
    symm
    apply filter_eq_slice
    intro k hklt
    simp only [List.getElem_zip, decide_eq_true_eq]
    exact hk k (by simp at hklt; omega)

/-- **C13, rate series: restriction outside the series.** A period that does not overlap the time covered by
the series gives an empty series of the same unit and rate type. -/
theorem C13_rate_for_period_outside (s : RateTS) (f l p : Period) (hf : s.periods.head? = some f)
    (hl : s.periods.getLast? = some l) (hp : p.stop ≤ f.start ∨ l.stop ≤ p.start) (h1 : f.start < l.stop)
    (h2 : p.start < p.stop) :
    ∃ r, s.forPeriod p = .ok r ∧ r.periods = [] ∧ r.values = [] ∧ r.regularity = [] ∧ r.unit = s.unit ∧
      r.rateType = s.rateType := by
  refine ⟨⟨[], [], s.unit, s.rateType, []⟩, ?_, rfl, rfl, rfl, rfl, rfl⟩
  unfold RateTS.forPeriod
  have hint : Period.intersects ⟨f.start, l.stop⟩ p = false := by
    unfold Period.intersects Period.containsDate
    simp only [Bool.or_eq_false_iff, Bool.and_eq_false_iff, decide_eq_false_iff_not]
    omega
  simp only [period_eq hf hl, Bind.bind, Except.bind, hint, Bool.not_false, if_true]
  rfl

/-- **C13, rate series: extending** appends the (period, value, regularity) triples, and is refused exactly when
unit or rate type differ. -/
theorem C13_rate_extend (s o : RateTS) (hs : C07.OnePerPeriod s) (ho : C07.OnePerPeriod o) :
    (s.unit ≠ o.unit ∨ s.rateType ≠ o.rateType ↔ s.extend o = .error .valueError) ∧
    ∀ r, s.extend o = .ok r → triples r = triples s ++ triples o ∧ r.unit = s.unit ∧ r.rateType = s.rateType := by
  obtain ⟨ps, vs, u, rt, reg⟩ := s
  obtain ⟨qs, ws, v, rt', reg'⟩ := o
  obtain ⟨a1, a2⟩ := hs
  obtain ⟨b1, b2⟩ := ho
  simp only at a1 a2 b1 b2
  unfold RateTS.extend
  simp only
  by_cases hu : u = v
  · by_cases hr : rt = rt'
    · subst hu hr
      have hl : (ps ++ qs).length = (vs ++ ws).length ∧ (ps ++ qs).length = (reg ++ reg').length := by
        simp; omega
      simp only [ne_eq, not_true_eq_false, or_self, if_false, RateTS.make]
      rw [if_pos hl]
      refine ⟨by simp, ?_⟩
      intro r hr
      simp only [Except.ok.injEq] at hr
      subst hr
      refine ⟨?_, rfl, rfl⟩
      unfold triples
      simp only
      rw [List.zip_append (by omega), List.zip_append (by simp; omega)]
    · simp [hu, hr]
  · simp [hu]

/-- Finding: unlike the plain series, extending a rate series does not look at the dates, so a gap or a wrong
order is accepted. -/
theorem C13_rate_extend_unchecked : ∃ s o r, C07.OnePerPeriod s ∧ C07.OnePerPeriod o ∧ WF s.periods ∧ WF o.periods ∧
    s.extend o = .ok r ∧ ¬ WF r.periods := by
  refine ⟨⟨[⟨5, 9⟩], [some 1], .MEGA_WATT, .streamDay, [some 1]⟩, ⟨[⟨0, 4⟩], [some 2], .MEGA_WATT, .streamDay, [some 1]⟩,
    ⟨[⟨5, 9⟩, ⟨0, 4⟩], [some 1, some 2], .MEGA_WATT, .streamDay, [some 1, some 1]⟩, ⟨rfl, rfl⟩, ⟨rfl, rfl⟩, ?_, ?_, ?_, ?_⟩
  · decide
  · decide
  · decide +kernel
  · decide

/-- Non-vacuity: a three period series restricted to its last two periods. -/
example : WF [⟨0, 3⟩, ⟨3, 6⟩, ⟨6, 9⟩] ∧
    TS.forPeriod ⟨[⟨0, 3⟩, ⟨3, 6⟩, ⟨6, 9⟩], [10, 20, 30], .NONE⟩ ⟨3, 9⟩ = .ok ⟨[⟨3, 6⟩, ⟨6, 9⟩], [20, 30], .NONE⟩ ∧
    TS.extend ⟨[⟨3, 6⟩, ⟨6, 9⟩], [20, 30], .NONE⟩ ⟨[⟨0, 3⟩], [10], .NONE⟩
      = .ok ⟨[⟨0, 3⟩, ⟨3, 6⟩, ⟨6, 9⟩], [10, 20, 30], EUnit.NONE⟩ := by
  refine ⟨?_, by decide +kernel, by decide +kernel⟩
  decide

/-- Non-vacuity: a period in front is filled. -/
example : TS.fillValuesForNewPeriods ⟨[⟨3, 6⟩], [20], .NONE⟩ [⟨0, 3⟩, ⟨3, 6⟩] 7
    = .ok ⟨[⟨0, 3⟩, ⟨3, 6⟩], [7, 20], EUnit.NONE⟩ := by decide +kernel

end Verif.C13
