import Verif.Lemmas.Interp
import Verif.Lemmas.ListAux
import Verif.Props.C09

/-! # C11 — A resampled validity flag is true only if every covered period is valid -/

namespace Verif.C11
open Verif.Time Verif.Units Verif.Rates Verif.RateLemmas Verif.C05 Verif.Interp Verif.ListAux

/-- Specification: every original period that shares a moment with `q` is flagged true. -/
def AllOverlappingTrue (s : TS Bool) (q : Period) : Prop :=
  ∀ (i : Nat) (p : Period) (v : Bool), s.periods[i]? = some p → s.values[i]? = some v → Overlap p q → v = true

theorem lastIndexWhere_spec {ds : List Int} (hs : ds.Pairwise (· < ·)) {q : Int → Bool} {i : Nat}
    (h : lastIndexWhere ds q = .ok i) :
    ∃ hi : i < ds.length, q ds[i] = true ∧ ∀ k (hk : k < ds.length), i < k → q ds[k] = false := by
  unfold lastIndexWhere at h
  split at h
  · simp at h
  · rename_i m hm
    obtain ⟨hmem, hmax⟩ := List.max?_eq_some_iff.mp hm
    unfold Periods.pyIndex at h
    split at h
    · rename_i j hj
      simp only [Except.ok.injEq] at h
      subst h
      obtain ⟨hlt, heq⟩ := idxOf?_some hj
      refine ⟨hlt, ?_, ?_⟩
      · rw [heq]; exact (List.mem_filter.mp hmem).2
      · intro k hk hik
        have := List.pairwise_iff_getElem.mp hs j k hlt hk hik
        rw [heq] at this
        by_contra hq
        have hq' : q ds[k] = true := by simpa using hq
        have := hmax ds[k] (List.mem_filter.mpr ⟨List.getElem_mem hk, hq'⟩)
        omega
    · simp at h

theorem lastIndexWhere_ok {ds : List Int} {q : Int → Bool} (d : Int) (hd : d ∈ ds) (hq : q d = true) :
    ∃ i, lastIndexWhere ds q = .ok i := by
  unfold lastIndexWhere
  cases hm : (ds.filter q).max? with
  | none =>
    rw [List.max?_eq_none_iff] at hm
    have : d ∈ ds.filter q := List.mem_filter.mpr ⟨hd, hq⟩
    rw [hm] at this; simp at this
  | some m =>
    obtain ⟨hmem, -⟩ := List.max?_eq_some_iff.mp hm
    obtain ⟨i, hi⟩ := idxOf?_isSome (List.mem_filter.mp hmem).1
    exact ⟨i, by simp [Periods.pyIndex, hi]⟩

theorem lastIndexWhere_none {ds : List Int} {q : Int → Bool} (h : ∀ d ∈ ds, q d = false) :
    lastIndexWhere ds q = .error .valueError := by
  unfold lastIndexWhere
  have : ds.filter q = [] := by
    rw [List.filter_eq_nil_iff]; intro d hd; rw [h d hd]; simp
  rw [this]; rfl

theorem dates_sorted {p : Period} {ps : List Period} (h : WF (p :: ps)) :
    (p.start :: (p :: ps).map (·.stop)).Pairwise (· < ·) := by
  induction ps generalizing p with
  | nil => simpa [WF] using h
  | cons q ps ih =>
    obtain ⟨h1, h2, h3⟩ := h
    have := ih h3
    rw [← h2] at this
    simp only [List.map_cons] at this ⊢
    rw [List.pairwise_cons]
    refine ⟨?_, this⟩
    intro a ha
    rcases List.mem_cons.mp ha with rfl | ha
    · exact h1
    · have := (List.pairwise_cons.mp this).1 a ha
      omega

/-- Period `k` runs from date `k` to date `k+1`. -/
theorem dates_get {p : Period} {ps : List Period} (h : WF (p :: ps)) (k : Nat) (r : Period)
    (hr : (p :: ps)[k]? = some r) :
    (p.start :: (p :: ps).map (·.stop))[k]? = some r.start ∧
    (p.start :: (p :: ps).map (·.stop))[k + 1]? = some r.stop := by
  induction ps generalizing p k with
  | nil =>
    cases k with
    | zero => simp at hr; subst hr; simp
    | succ k => simp at hr
  | cons q ps ih =>
    cases k with
    | zero => simp at hr; subst hr; simp
    | succ k =>
      obtain ⟨h1, h2, h3⟩ := h
      have := ih h3 k (by simpa using hr)
      rw [← h2] at this
      simpa using this

/-- Value computed for one new period. -/
theorem one_period {p : Period} {ps : List Period} {vs : List Bool} {u : EUnit} (hw : WF (p :: ps))
    (hl : (p :: ps).length = vs.length) (q : Period) (i j : Nat)
    (hi : lastIndexWhere (p.start :: (p :: ps).map (·.stop)) (fun d => decide (d ≤ q.start)) = .ok i)
    (hj : lastIndexWhere (p.start :: (p :: ps).map (·.stop)) (fun d => decide (d < q.stop)) = .ok j)
    (hq : q.start < q.stop) :
    ((Periods.slice vs i (j + 1)).all id = true ↔ AllOverlappingTrue ⟨p :: ps, vs, u⟩ q) := by
  obtain ⟨hi1, hi2, hi3⟩ := lastIndexWhere_spec (dates_sorted hw) hi
  obtain ⟨hj1, hj2, hj3⟩ := lastIndexWhere_spec (dates_sorted hw) hj
  simp only [decide_eq_true_eq, decide_eq_false_iff_not] at hi2 hi3 hj2 hj3
  have hs := List.pairwise_iff_getElem.mp (dates_sorted hw)
  generalize hD : p.start :: (p :: ps).map (·.stop) = D at *
  have hDl : D.length = vs.length + 1 := by rw [← hD, ← hl]; simp
  have key : ∀ (k : Nat) (r : Period), (p :: ps)[k]? = some r → (Overlap r q ↔ i ≤ k ∧ k < j + 1) := by
    intro k r hr
    have hg := dates_get hw k r hr
    rw [hD] at hg
    obtain ⟨hk1, e1⟩ := List.getElem?_eq_some_iff.mp hg.1
    obtain ⟨hk2, e2⟩ := List.getElem?_eq_some_iff.mp hg.2
    have hrr : r.start < r.stop := wf_nonempty hw r (List.mem_of_getElem? hr)
    rw [overlap_iff]
    constructor
    · intro h
      constructor
      · by_contra hc
        have : k + 1 ≤ i := by omega
        rcases Nat.lt_or_eq_of_le this with h' | h'
        · have := hs (k + 1) i hk2 hi1 h'; omega
        · subst h'; omega
      · by_contra hc
        have := hj3 k hk1 (by omega)
        omega
    · rintro ⟨h1, h2⟩
      have a : r.start < q.stop := by
        rcases Nat.lt_or_eq_of_le (show k ≤ j by omega) with h' | h'
        · have := hs k j hk1 hj1 h'; omega
        · subst h'; omega
      have b : q.start < r.stop := by
        have := hi3 (k + 1) hk2 (by omega)
        omega
      omega
  unfold AllOverlappingTrue Periods.slice
  rw [List.all_eq_true]
  constructor
  · intro h k r v hr hv hov
    obtain ⟨k1, k2⟩ := (key k r hr).mp hov
    apply h
    apply List.mem_of_getElem? (i := k - i)
    rw [List.getElem?_drop, List.getElem?_take]
    rw [if_pos (by omega), show i + (k - i) = k by omega, hv]
  · intro h v hv
    obtain ⟨m, hm⟩ := List.mem_iff_getElem?.mp hv
    rw [List.getElem?_drop, List.getElem?_take] at hm
    split at hm
    · rename_i hlt
      have hb : i + m < (p :: ps).length := by
        rw [hl]; exact (List.getElem?_eq_some_iff.mp hm).1
      have hr : (p :: ps)[i + m]? = some (p :: ps)[i + m] := List.getElem?_eq_getElem hb
      exact h (i + m) _ v hr hm ((key _ _ hr).mpr ⟨by omega, hlt⟩)
    · simp at hm

theorem mapM_get {α β : Type} {f : α → Except Err β} {xs : List α} {ys : List β} (h : xs.mapM f = .ok ys) :
    xs.length = ys.length ∧ ∀ (k : Nat) (x : α) (y : β), xs[k]? = some x → ys[k]? = some y → f x = .ok y := by
  induction xs generalizing ys with
  | nil =>
    simp [List.mapM_nil, Pure.pure, Except.pure] at h; subst h; simp
  | cons x xs ih =>
    rw [List.mapM_cons] at h
    cases hx : f x with
    | error e => simp [hx, Bind.bind, Except.bind] at h
    | ok y =>
      cases hxs : xs.mapM f with
      | error e => simp [hx, hxs, Bind.bind, Except.bind] at h
      | ok ys' =>
        simp [hx, hxs, Bind.bind, Except.bind, Pure.pure, Except.pure] at h
        subst h
        obtain ⟨h1, h2⟩ := ih hxs
        refine ⟨by simp [h1], ?_⟩
        intro k a b ha hb
        cases k with
        | zero => simp at ha hb; subst ha hb; exact hx
        | succ k => exact h2 k a b (by simpa using ha) (by simpa using hb)

theorem mapM_ok {α β : Type} {f : α → Except Err β} {xs : List α} (h : ∀ x ∈ xs, ∃ y, f x = .ok y) :
    ∃ ys, xs.mapM f = .ok ys := by
  induction xs with
  | nil => exact ⟨[], rfl⟩
  | cons x xs ih =>
    obtain ⟨y, hy⟩ := h x (by simp)
    obtain ⟨ys, hys⟩ := ih (fun z hz => h z (by simp [hz]))
    exact ⟨y :: ys, by rw [List.mapM_cons]; simp [hy, hys, Bind.bind, Except.bind, Pure.pure, Except.pure]⟩

/-- **C11, meaning of the resampled flag.** Whenever resampling returns, the flag of each reporting period is
true exactly when all original periods that overlap it are flagged true. -/
theorem C11_true_iff_all_true (s r : TS Bool) (freq : Frequency) (bs be : Bool) (hfreq : freq ≠ .none)
    (hw : WF s.periods) (hl : s.periods.length = s.values.length)
    (h : boolResample s freq bs be = .ok r) :
    resamplePeriods s.periods freq bs be = .ok r.periods ∧ r.values.length = r.periods.length ∧
    ∀ (k : Nat) (q : Period) (b : Bool), r.periods[k]? = some q → r.values[k]? = some b →
      (b = true ↔ AllOverlappingTrue s q) := by
  obtain ⟨qs, vs, u⟩ := s
  simp only at hw hl
  unfold boolResample at h
  rw [if_neg hfreq] at h
  cases hn : resamplePeriods qs freq bs be with
  | error e => simp [hn, Bind.bind, Except.bind] at h
  | ok nps =>
    simp only [hn, Bind.bind, Except.bind] at h
    cases hv : boolResampleValues ⟨qs, vs, u⟩ nps with
    | error e => simp [hv] at h
    | ok bs' =>
      simp only [hv, TS.make] at h
      split at h
      · rename_i hlen
        simp only [Except.ok.injEq] at h
        subst h
        refine ⟨rfl, hlen.symm, ?_⟩
        intro k q b hq hb
        simp only at hq hb
        obtain ⟨-, hget⟩ := mapM_get hv
        have hk := hget k q b hq hb
        have hqw : q.start < q.stop := by
          have hwn : WF nps := by
            unfold resamplePeriods at hn
            rw [if_neg hfreq] at hn
            split at hn
            · rename_i f l _ _
              simp only [Except.ok.injEq] at hn
              rw [← hn]
              have hsort : (createStartAndEndDates freq f.start l.stop bs be).Pairwise (· < ·) := by
                unfold createStartAndEndDates; exact pairwise_sortedSet _
              have pw : ∀ l : List Int, l.Pairwise (· < ·) → WF (Periods.pairs l) := by
                intro l
                induction l with
                | nil => intro _; trivial
                | cons a l ih =>
                  intro h
                  cases l with
                  | nil => trivial
                  | cons b l =>
                    have hab := (List.pairwise_cons.mp h).1 b (by simp)
                    have := ih h.of_cons
                    cases l with
                    | nil => exact hab
                    | cons c l => exact ⟨hab, rfl, this⟩
              cases hd : createStartAndEndDates freq f.start l.stop bs be with
              | nil => simp [Periods.createPeriods]; trivial
              | cons d ds =>
                rw [hd] at hsort
                simp only [Periods.createPeriods, Bool.false_eq_true, if_false, List.nil_append, List.append_nil]
                exact pw _ hsort
            · simp at hn
          exact wf_nonempty hwn q (List.mem_of_getElem? hq)
        cases qs with
        | nil => simp [Periods.allDates, Periods.endDates, Bind.bind, Except.bind] at hk
        | cons p ps =>
          simp only [wf_allDates hw, Bind.bind, Except.bind] at hk
          cases hi : lastIndexWhere (p.start :: (p :: ps).map (·.stop)) (fun d => decide (d ≤ q.start)) with
          | error e => rw [hi] at hk; simp at hk
          | ok i =>
            cases hj : lastIndexWhere (p.start :: (p :: ps).map (·.stop)) (fun d => decide (d < q.stop)) with
            | error e => rw [hi, hj] at hk; simp at hk
            | ok j =>
              rw [hi, hj] at hk
              simp only [Pure.pure, Except.pure, Except.ok.injEq] at hk
              rw [← hk]
              exact one_period hw hl q i j hi hj hqw
      · simp at h

/-- **C11, success.** Resampling returns a result when the series starts at midnight or the start date is not
included. -/
theorem C11_succeeds (s : TS Bool) (freq : Frequency) (bs be : Bool) (hfreq : freq ≠ .none)
    (hw : WF s.periods) (hl : s.periods.length = s.values.length) (f : Period) (hf : s.periods.head? = some f)
    (h0 : 0 ≤ f.start) (hmid : bs = true → f.start % (86400 * 1000000) = 0) :
    ∃ r, boolResample s freq bs be = .ok r := by
  obtain ⟨qs, vs, u⟩ := s
  simp only at hw hl hf
  cases qs with
  | nil => simp at hf
  | cons p ps =>
  simp at hf; subst hf
  have hper := wf_nonempty hw
  unfold boolResample
  rw [if_neg hfreq]
  have hn : resamplePeriods (p :: ps) freq bs be = .ok (Periods.createPeriods
      (createStartAndEndDates freq p.start ((p :: ps).getLast (by simp)).stop bs be) false false) := by
    unfold resamplePeriods
    rw [if_neg hfreq, List.head?_cons, List.getLast?_eq_some_getLast (by simp)]
  have hse : p.start < ((p :: ps).getLast (by simp)).stop := by
    have h1 := hper _ (List.getLast_mem (l := p :: ps) (by simp))
    have h2 := hper p (by simp)
    rcases List.mem_cons.mp (List.getLast_mem (l := p :: ps) (by simp)) with e | e
    · rw [e]; exact h2
    · have := wf_head_le hw _ e; omega
  have hstart : ∀ q ∈ Periods.createPeriods
      (createStartAndEndDates freq p.start ((p :: ps).getLast (by simp)).stop bs be) false false,
      p.start ≤ q.start ∧ p.start < q.stop := by
    cases hd : createStartAndEndDates freq p.start ((p :: ps).getLast (by simp)).stop bs be with
    | nil => simp [Periods.createPeriods]
    | cons d0 ds =>
      cases ds with
      | nil => simp [Periods.createPeriods, Periods.pairs]
      | cons d1 ds =>
        obtain ⟨ha, hbf, hbt⟩ := C09.dates_after_start freq _ _ bs be hse h0 d0 d1 ds hd
        have hd0 : p.start ≤ d0 := by
          cases hb : bs with
          | false => have := hbf hb; omega
          | true => rw [hbt hb]; have := hmid hb; unfold clearTime usPerDay; omega
        intro q hq
        simp only [Periods.createPeriods, Bool.false_eq_true, if_false, List.nil_append, List.append_nil] at hq
        have : ∀ (l : List Int) (a b : Int), p.start ≤ a → (∀ d ∈ b :: l, p.start < d) →
            ∀ q ∈ Periods.pairs (a :: b :: l), p.start ≤ q.start ∧ p.start < q.stop := by
          intro l
          induction l with
          | nil => intro a b h1 h2 q hq; simp [Periods.pairs] at hq; subst hq; exact ⟨h1, h2 b (by simp)⟩
          | cons c l ih =>
            intro a b h1 h2 q hq
            rw [Periods.pairs] at hq
            rcases List.mem_cons.mp hq with rfl | hq
            · exact ⟨h1, h2 b (by simp)⟩
            · exact ih b c (by have := h2 b (by simp); omega) (fun d hd => h2 d (by simp only [List.mem_cons] at hd ⊢; tauto)) q hq
        exact this ds d0 d1 hd0 ha q hq
  simp only [hn, Bind.bind, Except.bind]
  have hmap : ∃ bs', boolResampleValues ⟨p :: ps, vs, u⟩ (Periods.createPeriods
      (createStartAndEndDates freq p.start ((p :: ps).getLast (by simp)).stop bs be) false false) = .ok bs' := by
    apply mapM_ok
    intro q hq
    obtain ⟨h1, h2⟩ := hstart q hq
    simp only [wf_allDates hw, Bind.bind, Except.bind]
    obtain ⟨i, hi⟩ := lastIndexWhere_ok (ds := p.start :: (p :: ps).map (·.stop))
      (q := fun d => decide (d ≤ q.start)) p.start (by simp) (by simpa using h1)
    obtain ⟨j, hj⟩ := lastIndexWhere_ok (ds := p.start :: (p :: ps).map (·.stop))
      (q := fun d => decide (d < q.stop)) p.start (by simp) (by simpa using h2)
    rw [hi, hj]
    exact ⟨_, rfl⟩
  obtain ⟨bs', hbs⟩ := hmap
  rw [hbs]
  simp only [TS.make]
  rw [if_pos (mapM_get hbs).1]
  exact ⟨_, rfl⟩

/-- **C11, error instead of a wrong flag.** If the series starts at another time than midnight and the start
date is included, the first reporting period begins before the first date and resampling raises ValueError
(as soon as there is a reporting period). -/
theorem C11_start_not_midnight_is_error (s : TS Bool) (freq : Frequency) (be : Bool) (hfreq : freq ≠ .none)
    (hw : WF s.periods) (f : Period) (hf : s.periods.head? = some f)
    (h0 : 0 ≤ f.start) (hmid : f.start % (86400 * 1000000) ≠ 0) (q : Period) (nps : Periods)
    (hn : resamplePeriods s.periods freq true be = .ok (q :: nps)) :
    boolResample s freq true be = .error .valueError := by
  obtain ⟨qs, vs, u⟩ := s
  simp only at hw hf hn
  cases qs with
  | nil => simp at hf
  | cons p ps =>
  simp at hf; subst hf
  have hper := wf_nonempty hw
  have hse : p.start < ((p :: ps).getLast (by simp)).stop := by
    have h1 := hper _ (List.getLast_mem (l := p :: ps) (by simp))
    have h2 := hper p (by simp)
    rcases List.mem_cons.mp (List.getLast_mem (l := p :: ps) (by simp)) with e | e
    · rw [e]; exact h2
    · have := wf_head_le hw _ e; omega
  have hq : q.start < p.start := by
    unfold resamplePeriods at hn
    rw [if_neg hfreq, List.head?_cons, List.getLast?_eq_some_getLast (by simp)] at hn
    simp only [Except.ok.injEq] at hn
    cases hd : createStartAndEndDates freq p.start ((p :: ps).getLast (by simp)).stop true be with
    | nil => rw [hd] at hn; simp [Periods.createPeriods] at hn
    | cons d0 ds =>
      cases ds with
      | nil => rw [hd] at hn; simp [Periods.createPeriods, Periods.pairs] at hn
      | cons d1 ds =>
        obtain ⟨-, -, hbt⟩ := C09.dates_after_start freq _ _ true be hse h0 d0 d1 ds hd
        rw [hd] at hn
        simp only [Periods.createPeriods, Bool.false_eq_true, if_false, List.nil_append, List.append_nil,
          Periods.pairs, List.cons.injEq] at hn
        rw [← hn.1]
        simp only [hbt rfl]
        unfold clearTime usPerDay; omega
  unfold boolResample
  rw [if_neg hfreq]
  simp only [hn, Bind.bind, Except.bind, boolResampleValues, List.mapM_cons, wf_allDates hw]
  rw [lastIndexWhere_none]
  intro d hd
  have hall : ∀ x ∈ p.start :: (p :: ps).map (·.stop), p.start ≤ x := by
    intro x hx
    rcases List.mem_cons.mp hx with rfl | hx
    · omega
    · have := (List.pairwise_cons.mp (dates_sorted hw)).1 x hx
      omega
  have := hall d hd
  simp; omega

/-- Non-vacuity: three periods of 20, 10 and 20 days from 11 January with flags true, false, true, reported
monthly: January (11th to 31st) and February overlap the invalid period from the 31st to 10 February. -/
example : boolResample ⟨[⟨10 * usPerDay, 30 * usPerDay⟩, ⟨30 * usPerDay, 40 * usPerDay⟩, ⟨40 * usPerDay, 90 * usPerDay⟩],
      [true, false, true], .NONE⟩ .month true true
    = .ok ⟨[⟨10 * usPerDay, 31 * usPerDay⟩, ⟨31 * usPerDay, 59 * usPerDay⟩, ⟨59 * usPerDay, 90 * usPerDay⟩],
      [false, false, true], .NONE⟩ := by
  decide +kernel

end Verif.C11
