import Verif.Lemmas.Temporal

/-! # C04 — Restricting a temporal model to a target period never changes what is in force -/

namespace Verif.C04
open Verif.Time

/-- Specification: `t` is a moment of `p`. -/
def At (p : Period) (t : DateTime) : Prop := p.start ≤ t ∧ t < p.stop

/-- Specification: `v` is in force at `t` according to a list of (period, value) definitions. -/
def InForce {α : Type} (ms : List (Period × α)) (t : DateTime) (v : α) : Prop :=
  ∃ p, (p, v) ∈ ms ∧ At p t

/-- Specification: `v` is in force at `t` according to date keyed definitions: it belongs to the latest
date that is not after `t` (and time has not ended). -/
def InForceDates {α : Type} (kvs : List (Int × α)) (t : DateTime) (v : α) : Prop :=
  t < dtMax ∧ ∃ k, (k, v) ∈ kvs ∧ k ≤ t ∧ ∀ kv ∈ kvs, kv.1 ≤ t → kv.1 ≤ k

/-- Well-formed period keyed definitions: non-empty periods without common moments. -/
def DisjointDefs {α : Type} (ms : List (Period × α)) : Prop :=
  (∀ pm ∈ ms, pm.1.start < pm.1.stop) ∧ ms.Pairwise (fun a b => ∀ t, ¬ (At a.1 t ∧ At b.1 t))

theorem dictSet_append {κ α : Type} [DecidableEq κ] (k : κ) (v : α) (l : List (κ × α))
    (h : ∀ kv ∈ l, kv.1 ≠ k) : dictSet k v l = l ++ [(k, v)] := by
  induction l with
  | nil => rfl
  | cons a l ih =>
    have h1 := h a (by simp)
    simp only [dictSet, if_neg h1]
    rw [ih (fun kv hkv => h kv (List.mem_cons_of_mem _ hkv))]
    rfl

/-- The clipped entry for one definition. -/
def clip {α : Type} (target : Period) (pm : Period × α) : Option (Period × α) :=
  (Period.intersection pm.1 target).map (fun p => (p, pm.2))

theorem intersects_of_intersection {p q r : Period} (h : Period.intersection p q = some r) :
    Period.intersects p q = true := by
  unfold Period.intersection at h
  split at h
  · simp at h
  · simp_all

theorem clip_at {α : Type} {target : Period} {pm c : Period × α} (hp : pm.1.start < pm.1.stop)
    (ht : target.start < target.stop) (h : clip target pm = some c) :
    c.2 = pm.2 ∧ c.1.start < c.1.stop ∧ ∀ t, At c.1 t ↔ At pm.1 t ∧ At target t := by
  unfold clip at h
  simp only [Option.map_eq_some_iff] at h
  obtain ⟨r, hr, rfl⟩ := h
  have hi := intersects_of_intersection hr
  unfold Period.intersection at hr
  rw [hi] at hr
  simp at hr
  subst hr
  unfold Period.intersects Period.containsDate at hi
  simp only [Bool.or_eq_true, Bool.and_eq_true, decide_eq_true_eq] at hi
  refine ⟨rfl, by simp only; omega, ?_⟩
  intro t; unfold At; simp only; omega

theorem clip_none {α : Type} {target : Period} {pm : Period × α}
    (h : clip target pm = none) : ∀ t, ¬ (At pm.1 t ∧ At target t) := by
  unfold clip at h
  simp only [Option.map_eq_none_iff] at h
  unfold Period.intersection at h
  split at h
  · rename_i hn
    simp only [Bool.not_eq_true'] at hn
    unfold Period.intersects Period.containsDate at hn
    simp only [Bool.or_eq_false_iff, Bool.and_eq_false_iff, decide_eq_false_iff_not] at hn
    intro t; unfold At; omega
  · simp at h

theorem clipStep_eq {α : Type} (target : Period) (acc : List (Period × α)) (pm : Period × α) :
    clipStep target acc pm = match clip target pm with
      | some c => dictSet c.1 c.2 acc
      | none => acc := by
  unfold clipStep clip
  by_cases h : Period.intersects pm.1 target = true
  · rw [if_pos h]
    cases hi : Period.intersection pm.1 target with
    | some p => rfl
    | none => rfl
  · rw [if_neg h]
    have : Period.intersection pm.1 target = none := by
      unfold Period.intersection; simp [h]
    rw [this]; rfl

theorem foldl_clip {α : Type} (target : Period) (ht : target.start < target.stop)
    (ms acc : List (Period × α)) (hd : DisjointDefs ms)
    (hacc : ∀ a ∈ acc, a.1.start < a.1.stop ∧ ∀ pm ∈ ms, ∀ t, ¬ (At a.1 t ∧ At pm.1 t)) :
    ms.foldl (clipStep target) acc = acc ++ ms.filterMap (clip target) := by
  induction ms generalizing acc with
  | nil => simp
  | cons pm ms ih =>
    have hd' : DisjointDefs ms :=
      ⟨fun x hx => hd.1 x (List.mem_cons_of_mem _ hx), (List.pairwise_cons.mp hd.2).2⟩
    have hpm := hd.1 pm (by simp)
    rw [List.foldl_cons, clipStep_eq]
    cases hc : clip target pm with
    | none =>
      simp only
      rw [ih acc hd' (fun a ha => ⟨(hacc a ha).1, fun x hx => (hacc a ha).2 x (List.mem_cons_of_mem _ hx)⟩)]
      rw [List.filterMap_cons_none hc]
    | some c =>
      simp only
      obtain ⟨hc1, hc2, hc3⟩ := clip_at hpm ht hc
      rw [dictSet_append]
      · rw [ih (acc ++ [(c.1, c.2)]) hd']
        · rw [List.filterMap_cons_some hc]; simp
        · intro a ha
          rcases List.mem_append.mp ha with ha | ha
          · exact ⟨(hacc a ha).1, fun x hx => (hacc a ha).2 x (List.mem_cons_of_mem _ hx)⟩
          · simp at ha; subst ha
            refine ⟨hc2, ?_⟩
            intro x hx t hat
            exact (List.pairwise_cons.mp hd.2).1 x hx t ⟨((hc3 t).mp hat.1).1, hat.2⟩
      · intro a ha heq
        have h1 := hacc a ha
        refine h1.2 pm (by simp) a.1.start ⟨⟨by omega, h1.1⟩, ?_⟩
        have : At c.1 a.1.start := by rw [← heq]; exact ⟨by omega, h1.1⟩
        exact ((hc3 _).mp this).1

theorem filterMap_inForce {α : Type} (target : Period) (ht : target.start < target.stop)
    (ms : List (Period × α)) (hd : DisjointDefs ms) (t : DateTime) (v : α) :
    InForce (ms.filterMap (clip target)) t v ↔ At target t ∧ InForce ms t v := by
  unfold InForce
  constructor
  · rintro ⟨p, hp, hpt⟩
    obtain ⟨pm, hpm, hc⟩ := List.mem_filterMap.mp hp
    obtain ⟨h1, _, h3⟩ := clip_at (hd.1 pm hpm) ht hc
    simp only at h1 h3
    have := (h3 t).mp hpt
    exact ⟨this.2, pm.1, by rw [h1]; exact hpm, this.1⟩
  · rintro ⟨htt, p, hp, hpt⟩
    cases hc : clip target (p, v) with
    | none => exact absurd ⟨hpt, htt⟩ (clip_none hc t)
    | some c =>
      obtain ⟨h1, _, h3⟩ := clip_at (hd.1 _ hp) ht hc
      refine ⟨c.1, List.mem_filterMap.mpr ⟨(p, v), hp, ?_⟩, (h3 t).mpr ⟨hpt, htt⟩⟩
      rw [hc]
      simp only at h1
      rw [← h1]

/-- **C04, period keys.** -/
theorem C04_clip_periods {α : Type} (ms : List (Period × α)) (target : Period)
    (ht : target.start < target.stop) (hd : DisjointDefs ms) :
    ∃ r, defineTimeModelForPeriod (.dict (ms.map (fun pm => (Key.period pm.1, pm.2)))) target = .ok (some r) ∧
      ∀ t v, InForce r t v ↔ At target t ∧ InForce ms t v := by
  refine ⟨_, ?_, fun t v => filterMap_inForce target ht ms hd t v⟩
  unfold defineTimeModelForPeriod defaultTemporalModel
  have : ¬ ((ms.map (fun pm => (Key.period pm.1, pm.2))).any (fun kv => kv.1.isDate) = true) := by
    simp [Key.isDate]
  simp only [if_neg this, periodKeys_map_period]
  rw [foldl_clip target ht ms [] hd (by simp)]
  simp

theorem datesToPeriods_defs {α : Type} {kvs : List (Int × α)} (h : (kvs.map (·.1)).Pairwise (· < ·))
    (hmax : ∀ kv ∈ kvs, kv.1 < dtMax) : DisjointDefs (datesToPeriods kvs) := by
  refine ⟨?_, (datesToPeriods_disjoint h).imp (fun hab t => hab t)⟩
  induction kvs with
  | nil => simp [datesToPeriods]
  | cons a l ih =>
    obtain ⟨ka, va⟩ := a
    cases l with
    | nil =>
      intro pm hpm
      simp only [datesToPeriods, List.mem_singleton] at hpm
      subst hpm
      exact hmax (ka, va) (by simp)
    | cons b l =>
      obtain ⟨kb, vb⟩ := b
      intro pm hpm
      simp only [datesToPeriods, List.mem_cons] at hpm
      rcases hpm with rfl | hpm
      · exact List.rel_of_pairwise_cons (a := ka) h (by simp)
      · exact ih h.of_cons (fun kv hkv => hmax kv (List.mem_cons_of_mem _ hkv)) pm hpm

/-- **C04, date keys.** For ascending dates, what is in force in the restricted model at `t` is exactly the
definition of the latest date not after `t`, for moments `t` of the target period, and nothing elsewhere. -/
theorem C04_clip_dates {α : Type} (kvs : List (Int × α)) (target : Period)
    (ht : target.start < target.stop) (hne : kvs ≠ []) (hasc : (kvs.map (·.1)).Pairwise (· < ·))
    (hmax : ∀ kv ∈ kvs, kv.1 < dtMax) :
    ∃ r, defineTimeModelForPeriod (.dict (kvs.map (fun kv => (Key.date kv.1, kv.2)))) target = .ok (some r) ∧
      ∀ t v, InForce r t v ↔ At target t ∧ InForceDates kvs t v := by
  have hd := datesToPeriods_defs hasc hmax
  refine ⟨(datesToPeriods kvs).filterMap (clip target), ?_, ?_⟩
  · unfold defineTimeModelForPeriod defaultTemporalModel
    have h1 : (kvs.map (fun kv => (Key.date kv.1, kv.2))).any (fun kv => kv.1.isDate) = true := by
      cases kvs with
      | nil => exact absurd rfl hne
      | cons a l => simp [Key.isDate]
    have h2 : (kvs.map (fun kv => (Key.date kv.1, kv.2))).all (fun kv => kv.1.isDate) = true := by
      simp [Key.isDate]
    simp only [h1, h2, if_true, dateKeys_map_date]
    rw [foldl_clip target ht _ [] hd (by simp)]
    simp
  · intro t v
    rw [filterMap_inForce target ht _ hd t v]
    have := datesToPeriods_inForce hasc (fun kv hkv => Int.le_of_lt (hmax kv hkv)) t v
    unfold InForce InForceDates At at *
    rw [this]
    constructor
    · rintro ⟨h1, k, h2, h3, h4, h5⟩; exact ⟨h1, h4, k, h2, h3, h5⟩
    · rintro ⟨h1, h4, k, h2, h3, h5⟩; exact ⟨h1, k, h2, h3, h4, h5⟩

/-- **C04, plain definition.** A definition that is not time dependent is in force throughout the target
period and nowhere else. -/
theorem C04_plain {α : Type} (a : α) (target : Period) (ht : target.start < target.stop) :
    ∃ r, defineTimeModelForPeriod (.plain a) target = .ok (some r) ∧
      ∀ t v, InForce r t v ↔ At target t ∧ v = a := by
  have hd : DisjointDefs [(target, a)] := ⟨by simpa using ht, by simp⟩
  refine ⟨[(target, a)].filterMap (clip target), ?_, ?_⟩
  · unfold defineTimeModelForPeriod defaultTemporalModel
    simp only
    rw [foldl_clip target ht _ [] hd (by simp)]
    simp
  · intro t v
    rw [filterMap_inForce target ht _ hd t v]
    unfold InForce
    simp only [List.mem_singleton, Prod.mk.injEq]
    constructor
    · rintro ⟨h, p, ⟨rfl, rfl⟩, _⟩; exact ⟨h, rfl⟩
    · rintro ⟨h, rfl⟩; exact ⟨h, target, ⟨rfl, rfl⟩, h⟩

theorem clip_bounds {α : Type} {target : Period} {pm c : Period × α} (h : clip target pm = some c) :
    c.1 = ⟨max pm.1.start target.start, min pm.1.stop target.stop⟩ := by
  unfold clip at h
  simp only [Option.map_eq_some_iff] at h
  obtain ⟨r, hr, rfl⟩ := h
  have hi := intersects_of_intersection hr
  unfold Period.intersection at hr
  rw [hi] at hr
  simp at hr
  simp [← hr]

theorem filterMap_sorted {α : Type} (target : Period) (ms : List (Period × α))
    (ht : target.start < target.stop) (hn : ∀ pm ∈ ms, pm.1.start < pm.1.stop)
    (h : ms.Pairwise (fun a b => a.1.stop ≤ b.1.start)) :
    (ms.filterMap (clip target)).Pairwise (fun a b => a.1.stop ≤ b.1.start ∧ a.1.start < b.1.start) := by
  rw [List.pairwise_filterMap]
  refine h.imp_of_mem ?_
  intro a b ha hb hab c hc d hd
  have h1 := clip_at (hn a ha) ht hc
  rw [clip_bounds hc] at h1
  rw [clip_bounds hc, clip_bounds hd]
  simp only at h1 ⊢
  omega

/-- **C04, constructor.** `TemporalModel.create` never fails for ascending dates, and looking up any moment
in the created model gives a value exactly when the moment is in the target period and the value is the
definition in force there. -/
theorem C04_create_lookup {α : Type} (kvs : List (Int × α)) (target : Period)
    (ht : target.start < target.stop) (hne : kvs ≠ []) (hasc : (kvs.map (·.1)).Pairwise (· < ·))
    (hmax : ∀ kv ∈ kvs, kv.1 < dtMax) :
    ∃ m, TModel.createFor (.dict (kvs.map (fun kv => (Key.date kv.1, kv.2)))) target = .ok (some m) ∧
      ∀ t v, TModel.getModel m t = .ok v ↔ At target t ∧ InForceDates kvs t v := by
  obtain ⟨r, hr, hf⟩ := C04_clip_dates kvs target ht hne hasc hmax
  have hd := datesToPeriods_defs hasc hmax
  have hr' : r = (datesToPeriods kvs).filterMap (clip target) := by
    unfold defineTimeModelForPeriod defaultTemporalModel at hr
    have h1 : (kvs.map (fun kv => (Key.date kv.1, kv.2))).any (fun kv => kv.1.isDate) = true := by
      cases kvs with
      | nil => exact absurd rfl hne
      | cons a l => simp [Key.isDate]
    have h2 : (kvs.map (fun kv => (Key.date kv.1, kv.2))).all (fun kv => kv.1.isDate) = true := by
      simp [Key.isDate]
    simp only [h1, h2, if_true, dateKeys_map_date] at hr
    rw [foldl_clip target ht _ [] hd (by simp)] at hr
    simpa using hr.symm
  have hs := filterMap_sorted target (datesToPeriods kvs) ht hd.1
    ((datesToPeriods_pairwise hasc).imp (fun h => h.1))
  rw [← hr'] at hs
  have hcreate : TModel.create (r.map (fun pm => (Key.period pm.1, pm.2))) = .ok r := by
    unfold TModel.create
    have hsorted : r.map (·.1) = (r.map (·.1)).mergeSort Period.le := by
      rw [eq_mergeSort_iff, List.pairwise_map]
      refine hs.imp ?_
      intro a b hab
      simp only [Period.le, Bool.or_eq_true, Bool.and_eq_true, decide_eq_true_eq]
      omega
    cases r with
    | nil => simp [dateKeys, datesToPeriods]
    | cons a l =>
      have h1 : ¬ (((a :: l).map (fun pm => (Key.period pm.1, pm.2))).all (fun kv => kv.1.isDate) = true) := by
        simp [Key.isDate]
      have h2 : ((a :: l).map (fun pm => (Key.period pm.1, pm.2))).all (fun kv => kv.1.isPeriod) = true := by
        simp [Key.isPeriod]
      simp only [if_neg h1, h2, if_true, periodKeys_map_period]
      rw [if_pos hsorted]
  refine ⟨r, ?_, ?_⟩
  · unfold TModel.createFor
    rw [hr]
    simp only [hcreate]
  · intro t v
    rw [← hf t v, getModel_eq_iff]
    · unfold InForce At; rfl
    · refine hs.imp ?_
      intro a b hab t ht
      omega

/-- **C04, absent definition** stays absent. -/
theorem C04_absent {α : Type} (target : Period) :
    defineTimeModelForPeriod (TimeData.absent : TimeData α) target = .ok none := rfl

/-- Non-vacuity: dates 10, 20, 30 restricted to [15, 25). -/
example : defineTimeModelForPeriod
      (.dict [(Key.date 10, "a"), (Key.date 20, "b"), (Key.date 30, "c")]) ⟨15, 25⟩
      = .ok (some [(⟨15, 20⟩, "a"), (⟨20, 25⟩, "b")]) ∧
    InForceDates [(10, "a"), (20, "b"), (30, "c")] 17 "a" := by
  refine ⟨by rfl, by decide, 10, by simp, by omega, ?_⟩
  intro kv hkv; simp at hkv; rcases hkv with rfl | rfl | rfl <;> simp

end Verif.C04
