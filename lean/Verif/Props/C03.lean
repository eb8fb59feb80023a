import Verif.Lemmas.Temporal

/-! # C03 — A temporal model gives the last definition at or before the date -/

namespace Verif.C03
open Verif.Time

/-- A dict with date keys as handed to `TemporalModel(...)`. -/
def dated {α : Type} (kvs : List (Int × α)) : List (Key × α) := kvs.map (fun kv => (Key.date kv.1, kv.2))

/-- Specification: keys in ascending order. -/
def Ascending {α : Type} (kvs : List (Int × α)) : Prop := (kvs.map (·.1)).Pairwise (· < ·)

/-- Specification: `v` is the value of the latest key that is not after `t`. -/
def LatestAt {α : Type} (kvs : List (Int × α)) (t : DateTime) (v : α) : Prop :=
  ∃ k, (k, v) ∈ kvs ∧ k ≤ t ∧ ∀ kv ∈ kvs, kv.1 ≤ t → kv.1 ≤ k

/-- **C03, acceptance.** Date keys (distinct, being dict keys) are accepted exactly when ascending;
otherwise construction fails with the unsorted-keys error. -/
theorem C03_accepts_iff_ascending {α : Type} (kvs : List (Int × α)) (hn : (kvs.map (·.1)).Nodup) :
    (Ascending kvs → ∃ m, TModel.create (dated kvs) = .ok m) ∧
    (¬ Ascending kvs → TModel.create (dated kvs) = .error .unsortedKeys) := by
  unfold Ascending dated
  rw [create_dates kvs hn]
  constructor
  · intro h; rw [if_pos h]; exact ⟨_, rfl⟩
  · intro h; rw [if_neg h]

/-- **C03, lookup.** In an accepted model, every moment before the end of time yields `v` exactly when `v`
is the value of the latest key not after the moment, and fails exactly when there is no such key. -/
theorem C03_lookup_is_latest {α : Type} (kvs : List (Int × α)) (hn : (kvs.map (·.1)).Nodup)
    (hmax : ∀ kv ∈ kvs, kv.1 ≤ dtMax) (m : TModel α) (hm : TModel.create (dated kvs) = .ok m)
    (t : DateTime) (ht : t < dtMax) :
    (∀ v, TModel.getModel m t = .ok v ↔ LatestAt kvs t v) ∧
    (TModel.getModel m t = .error .valueError ↔ ∀ kv ∈ kvs, t < kv.1) := by
  unfold dated at hm
  rw [create_dates kvs hn] at hm
  split at hm
  case isFalse => simp at hm
  case isTrue hasc =>
  simp only [Except.ok.injEq] at hm
  subst hm
  have h1 : ∀ v, TModel.getModel (datesToPeriods kvs) t = .ok v ↔ LatestAt kvs t v := by
    intro v
    rw [getModel_eq_iff (datesToPeriods_disjoint hasc) t v, datesToPeriods_inForce hasc hmax t v]
    unfold LatestAt
    constructor
    · rintro ⟨k, h1, h2, h3, h4⟩; exact ⟨k, h1, h2, h4⟩
    · rintro ⟨k, h1, h2, h4⟩; exact ⟨k, h1, h2, ht, h4⟩
  refine ⟨h1, ?_⟩
  constructor
  · intro herr kv hkv
    apply Int.not_le.mp
    intro hle
    -- the largest key not after `t` exists, contradiction
    have : ∃ v, LatestAt kvs t v := by
      clear h1 herr ht hmax hn
      induction kvs generalizing kv with
      | nil => simp at hkv
      | cons a l ih =>
        by_cases hex : ∃ kv' ∈ l, kv'.1 ≤ t
        · obtain ⟨kv', hkv', hle'⟩ := hex
          obtain ⟨v, k, hk1, hk2, hk3⟩ := ih hasc.of_cons kv' hkv' hle'
          refine ⟨v, k, List.mem_cons_of_mem _ hk1, hk2, ?_⟩
          intro x hx hxt
          rcases List.mem_cons.mp hx with rfl | hx
          · have : x.1 < k :=
              List.rel_of_pairwise_cons (a := x.1) hasc (List.mem_map.mpr ⟨_, hk1, rfl⟩)
            omega
          · exact hk3 x hx hxt
        · rcases List.mem_cons.mp hkv with rfl | hkv
          · refine ⟨kv.2, kv.1, by simp, hle, ?_⟩
            intro x hx hxt
            rcases List.mem_cons.mp hx with rfl | hx
            · omega
            · exact absurd ⟨x, hx, hxt⟩ hex
          · exact absurd ⟨kv, hkv, hle⟩ hex
    obtain ⟨v, hv⟩ := this
    rw [(h1 v).mpr hv] at herr
    simp at herr
  · intro hlt
    rw [getModel_error_iff]
    intro pm hpm hin
    have := hlt _ (datesToPeriods_mem_start hpm)
    simp only at this
    omega

/-- **C03, end of time.** No definition is in force at or after the end of time. -/
theorem C03_end_of_time {α : Type} (kvs : List (Int × α)) (hn : (kvs.map (·.1)).Nodup)
    (hmax : ∀ kv ∈ kvs, kv.1 ≤ dtMax) (m : TModel α) (hm : TModel.create (dated kvs) = .ok m)
    (t : DateTime) (ht : dtMax ≤ t) : TModel.getModel m t = .error .valueError := by
  unfold dated at hm
  rw [create_dates kvs hn] at hm
  split at hm
  case isFalse => simp at hm
  case isTrue hasc =>
  simp only [Except.ok.injEq] at hm
  subst hm
  rw [getModel_error_iff]
  intro pm hpm hin
  obtain ⟨k, _, _, h, _⟩ := (datesToPeriods_inForce hasc hmax t pm.2).mp ⟨pm.1, hpm, hin⟩
  omega

/-- **C03, period lookup.** A lookup by period returns a value only if the period is non-empty and that same
value is what is returned for every moment of the period. -/
theorem C03_period_lookup_sound {α : Type} (kvs : List (Int × α)) (hn : (kvs.map (·.1)).Nodup)
    (m : TModel α) (hm : TModel.create (dated kvs) = .ok m)
    (q : Period) (v : α) (h : TModel.getModelForPeriod m q = .ok v) :
    q.start < q.stop ∧ ∀ t, q.start ≤ t → t < q.stop → TModel.getModel m t = .ok v := by
  unfold dated at hm
  rw [create_dates kvs hn] at hm
  split at hm
  case isFalse => simp at hm
  case isTrue hasc =>
  simp only [Except.ok.injEq] at hm
  subst hm
  unfold TModel.getModelForPeriod at h
  split at h
  case h_2 => simp at h
  case h_1 pm hpm =>
  simp only [Except.ok.injEq] at h
  subst h
  have h1 := List.find?_some hpm
  have h2 := List.mem_of_find?_eq_some hpm
  simp only [Period.containsPeriod, Bool.and_eq_true, decide_eq_true_eq] at h1
  refine ⟨h1.1.2, ?_⟩
  intro t ht1 ht2
  rw [getModel_eq_iff (datesToPeriods_disjoint hasc)]
  exact ⟨pm.1, h2, by omega, by omega⟩

/-- **C03, period lookup is complete.** If one definition (key `k`, value `v`) is in force throughout a
non-empty period, the lookup by that period returns it. -/
theorem C03_period_lookup_complete {α : Type} (kvs : List (Int × α)) (hn : (kvs.map (·.1)).Nodup)
    (hmax : ∀ kv ∈ kvs, kv.1 ≤ dtMax) (m : TModel α) (hm : TModel.create (dated kvs) = .ok m)
    (q : Period) (hq : q.start < q.stop) (hqmax : q.stop ≤ dtMax) (k : DateTime) (v : α)
    (hk : (k, v) ∈ kvs) (hks : k ≤ q.start) (hother : ∀ kv ∈ kvs, kv.1 ≤ k ∨ q.stop ≤ kv.1) :
    TModel.getModelForPeriod m q = .ok v := by
  unfold dated at hm
  rw [create_dates kvs hn] at hm
  split at hm
  case isFalse => simp at hm
  case isTrue hasc =>
  simp only [Except.ok.injEq] at hm
  subst hm
  -- the first and last moment of q are governed by the same period
  have hlast : ∀ t, q.start ≤ t → t < q.stop →
      ∃ p, (p, v) ∈ datesToPeriods kvs ∧ p.start ≤ t ∧ t < p.stop ∧ p.start = k := by
    intro t h1 h2
    have hp := datesToPeriods_pairwise hasc
    have := (datesToPeriods_inForce hasc hmax t v).mpr
      ⟨k, hk, by omega, by omega, fun kv hkv hle => by have := hother kv hkv; omega⟩
    obtain ⟨p, hp1, hp2, hp3⟩ := this
    refine ⟨p, hp1, hp2, hp3, ?_⟩
    have hmem := datesToPeriods_mem_start hp1
    simp only at hmem
    -- p.start is a key with p.start ≤ t, so p.start ≤ k
    have h3 : p.start ≤ k := by have := hother _ hmem; simp only at this; omega
    -- were it smaller, the period starting at p.start would end at or before k
    apply Int.le_antisymm h3
    apply Int.not_lt.mp
    intro hlt
    have ⟨pk, hpk⟩ : ∃ pk, pk ∈ datesToPeriods kvs ∧ pk.1.start = k := by
      have : k ∈ (datesToPeriods kvs).map (fun pm => pm.1.start) := by
        rw [datesToPeriods_starts]; exact List.mem_map.mpr ⟨_, hk, rfl⟩
      obtain ⟨pk, h1, h2⟩ := List.mem_map.mp this
      exact ⟨pk, h1, h2⟩
    have : p.stop ≤ pk.1.start := by
      obtain ⟨a, ha, hae⟩ := List.mem_iff_getElem.mp hp1
      obtain ⟨b, hb, hbe⟩ := List.mem_iff_getElem.mp hpk.1
      have hpw := List.pairwise_iff_getElem.mp hp
      rcases Nat.lt_trichotomy a b with hab | hab | hab
      · have := (hpw a b ha hb hab).1
        rw [hae, hbe] at this; exact this
      · subst hab
        rw [hae] at hbe
        have := hpk.2
        rw [← hbe] at this
        simp only at this
        omega
      · have := (hpw b a hb ha hab).2
        rw [hae, hbe] at this
        simp only at this
        omega
    omega
  obtain ⟨p1, hp1, hp1s, hp1e, hp1k⟩ := hlast q.start (by omega) (by omega)
  obtain ⟨p2, hp2, hp2s, hp2e, hp2k⟩ := hlast (q.stop - 1) (by omega) (by omega)
  -- both start at k, so they are the same entry
  have hp12 : p1 = p2 := by
    have hp := datesToPeriods_pairwise hasc
    obtain ⟨a, ha, hae⟩ := List.mem_iff_getElem.mp hp1
    obtain ⟨b, hb, hbe⟩ := List.mem_iff_getElem.mp hp2
    have hpw := List.pairwise_iff_getElem.mp hp
    rcases Nat.lt_trichotomy a b with hab | hab | hab
    · have := (hpw a b ha hb hab).2
      rw [hae, hbe] at this; simp only at this; omega
    · subst hab
      rw [hae] at hbe
      exact (Prod.mk.inj hbe).1
    · have := (hpw b a hb ha hab).2
      rw [hae, hbe] at this; simp only at this; omega
  subst hp12
  have hcont : p1.containsPeriod q = true := by
    simp only [Period.containsPeriod, Bool.and_eq_true, decide_eq_true_eq]; omega
  -- some entry is found; by soundness its value agrees with the lookup at q.start
  cases hfind : TModel.getModelForPeriod (datesToPeriods kvs) q with
  | error e =>
    exfalso
    unfold TModel.getModelForPeriod at hfind
    split at hfind
    case h_1 => simp at hfind
    case h_2 hnone =>
    rw [List.find?_eq_none] at hnone
    exact hnone (p1, v) hp1 hcont
  | ok w =>
    have hcreate : TModel.create (dated kvs) = .ok (datesToPeriods kvs) := by
      unfold dated; rw [create_dates kvs hn, if_pos hasc]
    have hs := (C03_period_lookup_sound kvs hn _ hcreate q w hfind).2 q.start (by omega) (by omega)
    have hv : TModel.getModel (datesToPeriods kvs) q.start = .ok v := by
      rw [getModel_eq_iff (datesToPeriods_disjoint hasc)]
      exact ⟨p1, hp1, hp1s, hp1e⟩
    rw [hv] at hs
    simpa using hs.symm

/-- Mixed date and period keys are rejected. -/
theorem C03_mixed_keys_rejected {α : Type} (data : List (Key × α))
    (hd : ∃ d a, (Key.date d, a) ∈ data) (hp : ∃ p a, (Key.period p, a) ∈ data) :
    TModel.create data = .error .invalidKeys := by
  obtain ⟨d, a, hd⟩ := hd
  obtain ⟨p, b, hp⟩ := hp
  unfold TModel.create
  have h1 : ¬ (data.all (fun kv => kv.1.isDate) = true) := by
    rw [List.all_eq_true]; intro h; have := h _ hp; simp [Key.isDate] at this
  have h2 : ¬ (data.all (fun kv => kv.1.isPeriod) = true) := by
    rw [List.all_eq_true]; intro h; have := h _ hd; simp [Key.isPeriod] at this
  simp only [if_neg h1, if_neg h2]

/-- Non-vacuity: keys 10, 20, 30; at 25 the value of key 20 is in force, at 5 nothing is. -/
example : (([(10, "a"), (20, "b"), (30, "c")] : List (Int × String)).map (·.1)).Nodup ∧
    (∃ m, TModel.create (dated [(10, "a"), (20, "b"), (30, "c")]) = .ok m ∧
      TModel.getModel m 25 = .ok "b" ∧ TModel.getModel m 5 = .error .valueError ∧
      TModel.getModelForPeriod m ⟨22, 30⟩ = .ok "b" ∧
      TModel.getModelForPeriod m ⟨22, 31⟩ = .error .valueError) ∧
    LatestAt [(10, "a"), (20, "b"), (30, "c")] 25 "b" := by
  refine ⟨by decide, ⟨datesToPeriods [(10, "a"), (20, "b"), (30, "c")], ?_, by rfl, by rfl, by rfl, by rfl⟩, ?_⟩
  · unfold dated; rw [create_dates _ (by decide)]; rw [if_pos (by decide)]
  · exact ⟨20, by simp, by omega, by intro kv hkv; simp at hkv; rcases hkv with rfl | rfl | rfl <;> simp⟩

end Verif.C03
