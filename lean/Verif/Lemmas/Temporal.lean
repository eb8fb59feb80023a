import Verif.Model.Time

/-! Helper lemmas about temporal models. -/

namespace Verif.Time

theorem dateKeys_map_date {α : Type} (kvs : List (Int × α)) :
    dateKeys (kvs.map (fun kv => (Key.date kv.1, kv.2))) = kvs := by
  induction kvs with
  | nil => rfl
  | cons a l ih => simp [dateKeys, ih]

theorem periodKeys_map_period {α : Type} (ms : List (Period × α)) :
    periodKeys (ms.map (fun pm => (Key.period pm.1, pm.2))) = ms := by
  induction ms with
  | nil => rfl
  | cons a l ih => simp [periodKeys, ih]

theorem le_total (p q : Period) : (Period.le p q || Period.le q p) = true := by
  obtain ⟨ps, pe⟩ := p
  obtain ⟨qs, qe⟩ := q
  simp only [Period.le, Bool.or_eq_true, Bool.and_eq_true, decide_eq_true_eq]
  omega

theorem le_trans (p q r : Period) : Period.le p q = true → Period.le q r = true → Period.le p r = true := by
  obtain ⟨ps, pe⟩ := p
  obtain ⟨qs, qe⟩ := q
  obtain ⟨rs, re⟩ := r
  simp only [Period.le, Bool.or_eq_true, Bool.and_eq_true, decide_eq_true_eq]
  omega

/-- `list == sorted(list)` exactly when the list is ascending. -/
theorem eq_mergeSort_iff (ps : List Period) :
    ps = ps.mergeSort Period.le ↔ ps.Pairwise (fun p q => Period.le p q = true) := by
  constructor
  · intro h
    rw [h]
    exact List.pairwise_mergeSort le_trans le_total ps
  · intro h
    exact (List.mergeSort_of_pairwise h).symm

theorem datesToPeriods_starts {α : Type} (kvs : List (Int × α)) :
    (datesToPeriods kvs).map (fun pm => pm.1.start) = kvs.map (·.1) := by
  induction kvs with
  | nil => rfl
  | cons a l ih =>
    cases l with
    | nil => rfl
    | cons b l => simp only [datesToPeriods, List.map_cons]; rw [ih]; rfl

theorem datesToPeriods_mem_start {α : Type} {kvs : List (Int × α)} {pm : Period × α}
    (h : pm ∈ datesToPeriods kvs) : (pm.1.start, pm.2) ∈ kvs := by
  induction kvs with
  | nil => simp [datesToPeriods] at h
  | cons a l ih =>
    cases l with
    | nil => simp [datesToPeriods] at h; subst h; simp
    | cons b l =>
      simp only [datesToPeriods, List.mem_cons] at h
      rcases h with rfl | h
      · simp
      · exact List.mem_cons_of_mem _ (ih h)

/-- The end of each derived period: no later than every later key and the end of time. -/
theorem datesToPeriods_pairwise {α : Type} {kvs : List (Int × α)} (h : (kvs.map (·.1)).Pairwise (· < ·)) :
    (datesToPeriods kvs).Pairwise (fun a b => a.1.stop ≤ b.1.start ∧ a.1.start < b.1.start) := by
  induction kvs with
  | nil => simp [datesToPeriods]
  | cons a l ih =>
    cases l with
    | nil => simp [datesToPeriods]
    | cons b l =>
      simp only [datesToPeriods]
      have hab : a.1 < b.1 := List.rel_of_pairwise_cons h (by simp)
      have h2 : ((b :: l).map (·.1)).Pairwise (· < ·) := h.of_cons
      refine List.pairwise_cons.mpr ⟨?_, ih h2⟩
      intro pm hpm
      have hm := datesToPeriods_mem_start hpm
      simp only
      have hb : b.1 ≤ pm.1.start := by
        rcases List.mem_cons.mp hm with e | e
        · have : pm.1.start = b.1 := (Prod.mk.inj e).1
          omega
        · have : b.1 < pm.1.start :=
            List.rel_of_pairwise_cons (a := b.1) h2 (List.mem_map.mpr ⟨_, e, rfl⟩)
          omega
      omega

/-- Membership in the derived periods, stated on the keys. -/
theorem datesToPeriods_inForce {α : Type} {kvs : List (Int × α)} (h : (kvs.map (·.1)).Pairwise (· < ·))
    (hmax : ∀ kv ∈ kvs, kv.1 ≤ dtMax) (t : Int) (v : α) :
    (∃ p, (p, v) ∈ datesToPeriods kvs ∧ p.start ≤ t ∧ t < p.stop) ↔
    (∃ k, (k, v) ∈ kvs ∧ k ≤ t ∧ t < dtMax ∧ ∀ kv ∈ kvs, kv.1 ≤ t → kv.1 ≤ k) := by
  induction kvs with
  | nil => simp [datesToPeriods]
  | cons a l ih =>
    obtain ⟨ka, va⟩ := a
    cases l with
    | nil =>
      simp only [datesToPeriods, List.mem_singleton, Prod.mk.injEq]
      constructor
      · rintro ⟨p, ⟨rfl, rfl⟩, h1, h2⟩
        exact ⟨ka, ⟨rfl, rfl⟩, h1, h2, by rintro kv rfl _; simp⟩
      · rintro ⟨k, ⟨rfl, rfl⟩, h1, h2, _⟩
        exact ⟨_, ⟨rfl, rfl⟩, h1, h2⟩
    | cons b l =>
      obtain ⟨kb, vb⟩ := b
      have hab : ka < kb := List.rel_of_pairwise_cons h (by simp)
      have h2 : (((kb, vb) :: l).map (·.1)).Pairwise (· < ·) := h.of_cons
      have ih' := ih h2 (fun kv hkv => hmax kv (List.mem_cons_of_mem _ hkv))
      have hb : ∀ kv ∈ (kb, vb) :: l, kb ≤ kv.1 := by
        intro kv hkv
        rcases List.mem_cons.mp hkv with rfl | e
        · simp
        · have : kb < kv.1 := List.rel_of_pairwise_cons (a := kb) h2 (List.mem_map.mpr ⟨_, e, rfl⟩)
          omega
      have hkbmax : kb ≤ dtMax := hmax (kb, vb) (by simp)
      simp only [datesToPeriods]
      constructor
      · rintro ⟨p, hp, hp1, hp2⟩
        rcases List.mem_cons.mp hp with e | e
        · obtain ⟨rfl, rfl⟩ := Prod.mk.inj e
          refine ⟨ka, by simp, hp1, by simp only at hp2; omega, ?_⟩
          intro kv hkv hle
          rcases List.mem_cons.mp hkv with rfl | hkv
          · simp
          · have := hb kv hkv
            simp only at hp2
            omega
        · obtain ⟨k, hk, hk1, hk2, hk3⟩ := ih'.mp ⟨p, e, hp1, hp2⟩
          refine ⟨k, List.mem_cons_of_mem _ hk, hk1, hk2, ?_⟩
          intro kv hkv hle
          rcases List.mem_cons.mp hkv with rfl | hkv
          · have := hb _ hk
            simp only at this ⊢
            omega
          · exact hk3 kv hkv hle
      · rintro ⟨k, hk, hk1, hk2, hk3⟩
        rcases List.mem_cons.mp hk with e | e
        · obtain ⟨rfl, rfl⟩ := Prod.mk.inj e
          refine ⟨⟨k, kb⟩, by simp, hk1, ?_⟩
          simp only
          by_cases hlt : t < kb
          · exact hlt
          · have := hk3 (kb, vb) (by simp) (by simp; omega)
            simp only at this
            omega
        · obtain ⟨p, hp, hp1, hp2⟩ := ih'.mpr ⟨k, e, hk1, hk2, fun kv hkv => hk3 kv (List.mem_cons_of_mem _ hkv)⟩
          exact ⟨p, List.mem_cons_of_mem _ hp, hp1, hp2⟩

/-- In a list of pairwise disjoint periods `find?` for a date returns the unique entry containing it. -/
theorem getModel_eq_iff {α : Type} {m : TModel α}
    (hd : m.Pairwise (fun a b => ∀ t : Int, ¬ ((a.1.start ≤ t ∧ t < a.1.stop) ∧ (b.1.start ≤ t ∧ t < b.1.stop))))
    (t : Int) (v : α) :
    TModel.getModel m t = .ok v ↔ ∃ p, (p, v) ∈ m ∧ p.start ≤ t ∧ t < p.stop := by
  unfold TModel.getModel
  induction m with
  | nil => simp
  | cons a l ih =>
    have hd2 := List.pairwise_cons.mp hd
    have ih' := ih hd2.2
    by_cases hc : a.1.containsDate t = true
    · rw [List.find?_cons_of_pos (by simpa using hc)]
      simp only [Period.containsDate, Bool.and_eq_true, decide_eq_true_eq] at hc
      constructor
      · intro h
        simp only [Except.ok.injEq] at h
        exact ⟨a.1, by simp [← h], hc⟩
      · rintro ⟨p, hp, hp1⟩
        rcases List.mem_cons.mp hp with e | e
        · rw [← e]
        · exact absurd ⟨hc, hp1⟩ (hd2.1 _ e t)
    · rw [List.find?_cons_of_neg (by simpa using hc)]
      simp only [Period.containsDate, Bool.and_eq_true, decide_eq_true_eq] at hc
      rw [ih']
      constructor
      · rintro ⟨p, hp, hp1⟩; exact ⟨p, List.mem_cons_of_mem _ hp, hp1⟩
      · rintro ⟨p, hp, hp1⟩
        rcases List.mem_cons.mp hp with e | e
        · rw [← e] at hc; exact absurd hp1 hc
        · exact ⟨p, e, hp1⟩

theorem getModel_error_iff {α : Type} (m : TModel α) (t : Int) :
    TModel.getModel m t = .error .valueError ↔ ∀ pm ∈ m, ¬ (pm.1.start ≤ t ∧ t < pm.1.stop) := by
  unfold TModel.getModel
  cases h : List.find? (fun pm => pm.1.containsDate t) m with
  | none =>
    simp only [List.find?_eq_none, Period.containsDate, Bool.and_eq_true, decide_eq_true_eq] at h
    simp only [true_iff]
    exact h
  | some pm =>
    have h1 := List.find?_some h
    have h2 := List.mem_of_find?_eq_some h
    simp only [Period.containsDate, Bool.and_eq_true, decide_eq_true_eq] at h1
    simp only [reduceCtorEq, false_iff]
    intro h3
    exact h3 pm h2 h1

theorem datesToPeriods_disjoint {α : Type} {kvs : List (Int × α)} (h : (kvs.map (·.1)).Pairwise (· < ·)) :
    (datesToPeriods kvs).Pairwise
      (fun a b => ∀ t : Int, ¬ ((a.1.start ≤ t ∧ t < a.1.stop) ∧ (b.1.start ≤ t ∧ t < b.1.stop))) := by
  refine (datesToPeriods_pairwise h).imp ?_
  intro a b hab t ht
  omega

/-- Keys that are not strictly ascending (but distinct) are rejected; ascending keys are accepted. -/
theorem create_dates {α : Type} (kvs : List (Int × α)) (hn : (kvs.map (·.1)).Nodup) :
    TModel.create (kvs.map (fun kv => (Key.date kv.1, kv.2))) =
      if (kvs.map (·.1)).Pairwise (· < ·) then .ok (datesToPeriods kvs) else .error .unsortedKeys := by
  unfold TModel.create
  have hall : (kvs.map (fun kv => (Key.date kv.1, kv.2))).all (fun kv => kv.1.isDate) = true := by
    simp [Key.isDate]
  simp only [hall, if_true, dateKeys_map_date, eq_mergeSort_iff]
  have hiff : ((datesToPeriods kvs).map (·.1)).Pairwise (fun p q => Period.le p q = true) ↔
      (kvs.map (·.1)).Pairwise (· < ·) := by
    have hs := datesToPeriods_starts kvs
    constructor
    · intro h
      rw [← hs, List.pairwise_map]
      rw [List.pairwise_map] at h
      have hn' : (datesToPeriods kvs).Pairwise (fun a b => a.1.start ≠ b.1.start) := by
        rw [← hs] at hn
        exact List.pairwise_map.mp hn
      refine (h.and hn').imp ?_
      intro a b hab
      simp only [Period.le, Bool.or_eq_true, Bool.and_eq_true, decide_eq_true_eq] at hab
      omega
    · intro h
      rw [List.pairwise_map]
      refine (datesToPeriods_pairwise h).imp ?_
      intro a b hab
      simp only [Period.le, Bool.or_eq_true, Bool.and_eq_true, decide_eq_true_eq]
      omega
  by_cases hp : (kvs.map (·.1)).Pairwise (· < ·)
  · simp [hp, hiff.mpr hp]
  · have : ¬ ((datesToPeriods kvs).map (·.1)).Pairwise (fun p q => Period.le p q = true) :=
      fun h => hp (hiff.mp h)
    simp [hp, this]

end Verif.Time
