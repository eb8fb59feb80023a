import Verif.Model.Components
import Verif.Props.C04

/-!
# C100: a component burns the fuel that the file gives it

Specification: `Says d t v` says that the definition `d` of the file gives the value `v` at the moment `t`: a plain definition gives
it always, a definition with dates gives the value of the latest date that is not after `t`. `Written` are definitions that are
plain or have ascending dates. `Given` is the definition that counts: the one of the component itself, if it has one, and that of
the installation otherwise.
-/

namespace Verif.C100

open Verif.Time Verif.Components Verif.C04

variable {α φ γ : Type}

/-- The value of a definition at a moment. -/
def Says : TimeData α → DateTime → α → Prop
  | .absent, _, _ => False
  | .plain a, _, v => v = a
  | .dict kvs, t, v => InForceDates (dateKeys kvs) t v

/-- Definitions as they are written in a file. -/
inductive Written : TimeData α → Prop
  | plain (a : α) : Written (.plain a)
  | dates (kvs : List (Int × α)) (hne : kvs ≠ []) (hasc : (kvs.map (·.1)).Pairwise (· < ·)) (hmax : ∀ kv ∈ kvs, kv.1 < dtMax) :
      Written (.dict (kvs.map fun kv => (Key.date kv.1, kv.2)))

/-- The definition that counts. An empty text counts as no definition. -/
inductive Given : TimeData String → TimeData String → TimeData String → Prop
  | own {own default} : Written own → own ≠ .plain "" → Given own default own
  | default {default} : Written default → Given .absent default default

/-! ### Restriction to the target period -/

/-- What is known about a restricted definition. -/
structure Good (target : Period) (d : TimeData α) (r : List (Period × α)) : Prop where
  sorted : r.Pairwise fun a b => a.1.stop ≤ b.1.start ∧ a.1.start < b.1.start
  proper : ∀ x ∈ r, x.1.start < x.1.stop
  gives : ∀ t v, InForce r t v ↔ At target t ∧ Says d t v

theorem filterMap_proper (target : Period) (ht : target.start < target.stop) (ms : List (Period × α)) (hd : DisjointDefs ms) :
    ∀ x ∈ ms.filterMap (clip target), x.1.start < x.1.stop := by
  intro x hx
  obtain ⟨pm, hpm, hc⟩ := List.mem_filterMap.1 hx
  exact (clip_at (hd.1 pm hpm) ht hc).2.1

theorem restricted (target : Period) (ht : target.start < target.stop) {d : TimeData α} (hw : Written d) :
    ∃ r, defineTimeModelForPeriod d target = .ok (some r) ∧ Good target d r := by
  cases hw with
  | plain a =>
    have hd : DisjointDefs [(target, a)] := ⟨by simpa using ht, by simp⟩
    refine ⟨[(target, a)].filterMap (clip target), ?_, ?_, ?_, ?_⟩
    · unfold defineTimeModelForPeriod defaultTemporalModel
      simp only
      rw [foldl_clip target ht _ [] hd (by simp)]
      simp
    · exact filterMap_sorted target _ ht hd.1 (by simp)
    · exact filterMap_proper target ht _ hd
    · intro t v
      rw [filterMap_inForce target ht _ hd t v]
      unfold InForce Says
      simp only [List.mem_singleton, Prod.mk.injEq]
      constructor
      · rintro ⟨h, p, ⟨rfl, rfl⟩, _⟩; exact ⟨h, rfl⟩
      · rintro ⟨h, rfl⟩; exact ⟨h, target, ⟨rfl, rfl⟩, h⟩
  | dates kvs hne hasc hmax =>
    have hd := datesToPeriods_defs hasc hmax
    have hdef : defineTimeModelForPeriod (.dict (kvs.map (fun kv => (Key.date kv.1, kv.2)))) target =
        .ok (some ((datesToPeriods kvs).filterMap (clip target))) := by
      unfold defineTimeModelForPeriod defaultTemporalModel
      have h1 : (kvs.map (fun kv => (Key.date kv.1, kv.2))).any (fun kv => kv.1.isDate) = true := by
        cases kvs with
        | nil => exact absurd rfl hne
        | cons a l => simp [Key.isDate]
      have h2 : (kvs.map (fun kv => (Key.date kv.1, kv.2))).all (fun kv => kv.1.isDate) = true := by
        simp [Key.isDate]
      simp only [h1, h2, if_true, dateKeys_map_date]
      rw [foldl_clip target ht _ [] hd (by simp)]
      simp
    refine ⟨_, hdef, ?_, ?_, ?_⟩
    · exact filterMap_sorted target _ ht hd.1 ((datesToPeriods_pairwise hasc).imp fun h => h.1)
    · exact filterMap_proper target ht _ hd
    · intro t v
      obtain ⟨r, hr, hf⟩ := C04_clip_dates kvs target ht hne hasc hmax
      rw [hdef] at hr
      have hr := Option.some.inj (Except.ok.inj hr)
      subst hr
      rw [hf]
      simp only [Says, dateKeys_map_date]

theorem create_ok {r : List (Period × α)} (hs : r.Pairwise fun a b => a.1.stop ≤ b.1.start ∧ a.1.start < b.1.start) :
    temporal r = .ok r := by
  unfold temporal
  have hcreate : TModel.create (r.map (fun pm => (Key.period pm.1, pm.2))) = .ok r := by
    unfold TModel.create
    have hsorted : r.map (·.1) = (r.map (·.1)).mergeSort Period.le := by
      rw [eq_mergeSort_iff, List.pairwise_map]
      refine hs.imp ?_
      intro a b hab
      simp only [Period.le, Bool.or_eq_true, Bool.and_eq_true, decide_eq_true_eq]
      omega
    cases r with
    | nil => simp [dateKeys, datesToPeriods]
    | cons a l =>
      have h1 : ¬ (((a :: l).map (fun pm => (Key.period pm.1, pm.2))).all (fun kv => kv.1.isDate) = true) := by
        simp [Key.isDate]
      have h2 : ((a :: l).map (fun pm => (Key.period pm.1, pm.2))).all (fun kv => kv.1.isPeriod) = true := by
        simp [Key.isPeriod]
      simp only [if_neg h1, h2, if_true, periodKeys_map_period]
      rw [if_pos hsorted]
  rw [hcreate]

theorem getModel_sorted {r : List (Period × α)} (hs : r.Pairwise fun a b => a.1.stop ≤ b.1.start ∧ a.1.start < b.1.start)
    (t : DateTime) (v : α) : TModel.getModel r t = .ok v ↔ InForce r t v := by
  rw [getModel_eq_iff]
  · unfold InForce At; rfl
  · refine hs.imp ?_
    intro a b hab t ht
    omega

/-- A definition that gives something goes on giving something. -/
theorem Says.later {d : TimeData α} (hw : Written d) {t t' : DateTime} {v : α} (h : Says d t v) (hle : t ≤ t') (ht' : t' < dtMax) :
    ∃ v', Says d t' v' := by
  cases hw with
  | plain a => exact ⟨a, rfl⟩
  | dates kvs hne hasc hmax =>
    simp only [Says, dateKeys_map_date] at h ⊢
    obtain ⟨_, k, hk, hkt, _⟩ := h
    have : ∀ (l : List (Int × α)), (∃ x ∈ l, x.1 ≤ t') → ∃ x ∈ l, x.1 ≤ t' ∧ ∀ y ∈ l, y.1 ≤ t' → y.1 ≤ x.1 := by
      intro l
      induction l with
      | nil => rintro ⟨x, hx, _⟩; cases hx
      | cons a l ih =>
        rintro ⟨x, hx, hxt⟩
        by_cases hl : ∃ x ∈ l, x.1 ≤ t'
        · obtain ⟨z, hz, hzt, hzm⟩ := ih hl
          by_cases ha : a.1 ≤ t' ∧ z.1 ≤ a.1
          · refine ⟨a, List.mem_cons_self, ha.1, ?_⟩
            intro y hy hyt
            rcases List.mem_cons.1 hy with rfl | hy
            · exact Int.le_refl _
            · exact Int.le_trans (hzm y hy hyt) ha.2
          · refine ⟨z, List.mem_cons_of_mem _ hz, hzt, ?_⟩
            intro y hy hyt
            rcases List.mem_cons.1 hy with rfl | hy
            · omega
            · exact hzm y hy hyt
        · rcases List.mem_cons.1 hx with rfl | hx
          · refine ⟨x, List.mem_cons_self, hxt, ?_⟩
            intro y hy hyt
            rcases List.mem_cons.1 hy with rfl | hy
            · exact Int.le_refl _
            · exact absurd ⟨y, hy, hyt⟩ hl
          · exact absurd ⟨x, hx, hxt⟩ hl
    obtain ⟨x, hx, hxt, hxm⟩ := this kvs ⟨(k, v), hk, by simp only; omega⟩
    exact ⟨x.2, ht', x.1, hx, hxt, hxm⟩

/-- The period of a restricted definition: from the first moment at which it gives something to the end of the target period. -/
theorem period_good {target : Period} (ht : target.stop ≤ dtMax) {d : TimeData α} (hw : Written d)
    {r : List (Period × α)} (hg : Good target d r) (hne : r ≠ []) :
    ∃ s, periodOf r = .ok ⟨s, target.stop⟩ ∧ s < target.stop ∧ target.start ≤ s ∧
      (∃ v, Says d s v) ∧ ∀ t, At target t → (∃ v, Says d t v) → s ≤ t := by
  obtain ⟨a, l, rfl⟩ := List.exists_cons_of_ne_nil hne
  obtain ⟨z, hz⟩ : ∃ z, (a :: l).getLast? = some z := by
    cases h : (a :: l).getLast? with
    | none => simp at h
    | some z => exact ⟨z, rfl⟩
  have hzm : z ∈ a :: l := List.mem_of_getLast? hz
  have ha := hg.proper a List.mem_cons_self
  have hzp := hg.proper z hzm
  have hza : a.1.start ≤ z.1.start := by
    rcases List.mem_cons.1 hzm with rfl | h
    · exact Int.le_refl _
    · exact Int.le_of_lt ((List.pairwise_cons.1 hg.sorted).1 z h).2
  have hmaxz : ∀ x ∈ a :: l, x.1.stop ≤ z.1.stop := by
    have : ∀ (l : List (Period × α)), (∀ x ∈ l, x.1.start < x.1.stop) →
        (l.Pairwise fun a b => a.1.stop ≤ b.1.start ∧ a.1.start < b.1.start) →
        l.getLast? = some z → ∀ x ∈ l, x.1.stop ≤ z.1.stop := by
      intro l
      induction l with
      | nil => intro _ _ h; cases h
      | cons b l ih =>
        intro hp hs h x hx
        cases l with
        | nil =>
          simp at h
          subst h
          rcases List.mem_cons.1 hx with rfl | hx
          · exact Int.le_refl _
          · cases hx
        | cons c l =>
          rw [List.getLast?_cons_cons] at h
          have ih' := ih (fun x hx => hp x (List.mem_cons_of_mem _ hx)) (List.pairwise_cons.1 hs).2 h
          rcases List.mem_cons.1 hx with rfl | hx
          · have h1 := (List.pairwise_cons.1 hs).1 c List.mem_cons_self
            have h2 := hp c (List.mem_cons_of_mem _ List.mem_cons_self)
            have h3 := ih' c List.mem_cons_self
            omega
          · exact ih' x hx
    exact this _ hg.proper hg.sorted hz
  have hstart : At target a.1.start ∧ Says d a.1.start a.2 :=
    (hg.gives _ _).1 ⟨a.1, List.mem_cons_self, Int.le_refl _, ha⟩
  have hlast : At target (z.1.stop - 1) ∧ Says d (z.1.stop - 1) z.2 :=
    (hg.gives _ _).1 ⟨z.1, hzm, by constructor <;> omega⟩
  have hstop : z.1.stop = target.stop := by
    rcases Int.lt_or_le z.1.stop target.stop with h | h
    · exfalso
      obtain ⟨v', hv'⟩ := hlast.2.later hw (t' := z.1.stop) (by omega) (by omega)
      have h1 := hlast.1
      obtain ⟨p, hp, hpt⟩ := (hg.gives z.1.stop v').2 ⟨⟨by have := h1.1; omega, h⟩, hv'⟩
      have := hmaxz _ hp
      have := hpt.2
      simp only at *
      omega
    · have := hlast.1.2
      omega
  refine ⟨a.1.start, ?_, hstart.1.2, hstart.1.1, ⟨_, hstart.2⟩, ?_⟩
  · unfold periodOf TModel.getPeriod Periods.period
    simp only [List.map_cons, List.head?_cons]
    have : (a.1 :: l.map (·.1)).getLast? = some z.1 := by
      have := congrArg (Option.map (·.1)) hz
      rw [← List.getLast?_map] at this
      exact this
    rw [this, ← hstop]
  · rintro t htt ⟨v, hv⟩
    obtain ⟨p, hp, hpt⟩ := (hg.gives t v).2 ⟨htt, hv⟩
    rcases List.mem_cons.1 hp with h | h
    · have := hpt.1
      rw [← h]
      exact this
    · have := ((List.pairwise_cons.1 hg.sorted).1 _ h).2
      have := hpt.1
      simp only at *
      omega

theorem good_nonempty {target : Period} {d : TimeData α} {r : List (Period × α)} (hg : Good target d r) {t : DateTime} {v : α}
    (ht : At target t) (h : Says d t v) : r ≠ [] := by
  rintro rfl
  obtain ⟨p, hp, _⟩ := (hg.gives t v).2 ⟨ht, h⟩
  cases hp

/-! ### References -/

/-- The restricted definition after its names have been replaced. -/
theorem resolve_forall₂ (fuelOf : String → Option φ) : ∀ {r : List (Period × String)} {m : List (Period × φ)},
    r.mapM (resolveOne fuelOf) = .ok m → List.Forall₂ (fun x y => y.1 = x.1 ∧ fuelOf x.2 = some y.2) r m
  | [], m, h => by
    simp only [List.mapM_nil, pure, Except.pure] at h
    have h := Except.ok.inj h
    subst h
    exact .nil
  | x :: r, m, h => by
    rw [List.mapM_cons] at h
    simp only [Bind.bind, Except.bind] at h
    cases h1 : resolveOne fuelOf x with
    | error e => rw [h1] at h; cases h
    | ok y =>
      rw [h1] at h
      dsimp only at h
      cases h2 : r.mapM (resolveOne fuelOf) with
      | error e => rw [h2] at h; cases h
      | ok ys =>
        rw [h2] at h
        have h := Except.ok.inj h
        subst h
        refine .cons ?_ (resolve_forall₂ fuelOf h2)
        unfold resolveOne at h1
        cases hf : fuelOf x.2 with
        | none => rw [hf] at h1; cases h1
        | some f =>
          rw [hf] at h1
          have h1 := Except.ok.inj h1
          subst h1
          exact ⟨rfl, rfl⟩

theorem resolve_total (fuelOf : String → Option φ) : ∀ {r : List (Period × String)}, (∀ x ∈ r, ∃ f, fuelOf x.2 = some f) →
    ∃ m, r.mapM (resolveOne fuelOf) = .ok m
  | [], _ => ⟨[], rfl⟩
  | x :: r, h => by
    obtain ⟨f, hf⟩ := h x List.mem_cons_self
    obtain ⟨m, hm⟩ := resolve_total fuelOf fun y hy => h y (List.mem_cons_of_mem _ hy)
    refine ⟨(x.1, f) :: m, ?_⟩
    rw [List.mapM_cons]
    have : resolveOne fuelOf x = .ok (x.1, f) := by unfold resolveOne; rw [hf]
    rw [this]
    simp only [Bind.bind, Except.bind, hm]
    rfl

theorem resolve_fails (fuelOf : String → Option φ) : ∀ {r : List (Period × String)} {x : Period × String}, x ∈ r →
    fuelOf x.2 = none → ∃ y ∈ r, fuelOf y.2 = none ∧ r.mapM (resolveOne fuelOf) = .error (.invalidReference y.2)
  | a :: r, x, hx, hn => by
    rw [List.mapM_cons]
    cases ha : fuelOf a.2 with
    | none =>
      refine ⟨a, List.mem_cons_self, ha, ?_⟩
      have : resolveOne fuelOf a = .error (.invalidReference a.2) := by unfold resolveOne; rw [ha]
      rw [this]
      rfl
    | some f =>
      have hxr : x ∈ r := by
        rcases List.mem_cons.1 hx with rfl | h
        · rw [hn] at ha; cases ha
        · exact h
      obtain ⟨y, hy, hyn, he⟩ := resolve_fails fuelOf hxr hn
      refine ⟨y, List.mem_cons_of_mem _ hy, hyn, ?_⟩
      have : resolveOne fuelOf a = .ok (a.1, f) := by unfold resolveOne; rw [ha]
      rw [this]
      simp only [Bind.bind, Except.bind, he]

theorem forall₂_sorted {fuelOf : String → Option φ} {r : List (Period × String)} {m : List (Period × φ)}
    (h : List.Forall₂ (fun x y => y.1 = x.1 ∧ fuelOf x.2 = some y.2) r m)
    (hs : r.Pairwise fun a b => a.1.stop ≤ b.1.start ∧ a.1.start < b.1.start) :
    m.Pairwise fun a b => a.1.stop ≤ b.1.start ∧ a.1.start < b.1.start := by
  have hm : r.map (·.1) = m.map (·.1) := by
    clear hs
    induction h with
    | nil => rfl
    | cons hxy _ ih => rw [List.map_cons, List.map_cons, ih, hxy.1]
  have : (r.map (·.1)).Pairwise fun a b => a.stop ≤ b.start ∧ a.start < b.start := by
    rw [List.pairwise_map]; exact hs
  rw [hm, List.pairwise_map] at this
  exact this

theorem forall₂_inForce {fuelOf : String → Option φ} {r : List (Period × String)} {m : List (Period × φ)}
    (h : List.Forall₂ (fun x y => y.1 = x.1 ∧ fuelOf x.2 = some y.2) r m) (t : DateTime) (f : φ) :
    InForce m t f ↔ ∃ n, InForce r t n ∧ fuelOf n = some f := by
  unfold InForce
  induction h with
  | nil =>
    constructor
    · rintro ⟨p, hp, _⟩; cases hp
    · rintro ⟨n, ⟨p, hp, _⟩, _⟩; cases hp
  | @cons x y r m hxy h ih =>
    constructor
    · rintro ⟨p, hp, hpt⟩
      rcases List.mem_cons.1 hp with hp | hp
      · refine ⟨x.2, ⟨x.1, List.mem_cons_self, ?_⟩, ?_⟩
        · rw [← hxy.1, ← hp]; exact hpt
        · rw [hxy.2, ← hp]
      · obtain ⟨n, ⟨q, hq, hqt⟩, hn⟩ := ih.1 ⟨p, hp, hpt⟩
        exact ⟨n, ⟨q, List.mem_cons_of_mem _ hq, hqt⟩, hn⟩
    · rintro ⟨n, ⟨p, hp, hpt⟩, hn⟩
      rcases List.mem_cons.1 hp with hp | hp
      · refine ⟨y.1, List.mem_cons.2 (.inl ?_), ?_⟩
        · have : fuelOf x.2 = some f := by rw [← hp]; exact hn
          rw [hxy.2] at this
          have := Option.some.inj this
          rw [← this]
        · rw [hxy.1, ← hp]; exact hpt
      · obtain ⟨q, hq, hqt⟩ := ih.2 ⟨n, ⟨p, hp, hpt⟩, hn⟩
        exact ⟨q, List.mem_cons_of_mem _ hq, hqt⟩

theorem forall₂_period {fuelOf : String → Option φ} {r : List (Period × String)} {m : List (Period × φ)}
    (h : List.Forall₂ (fun x y => y.1 = x.1 ∧ fuelOf x.2 = some y.2) r m) : periodOf m = periodOf r := by
  have hm : m.map (·.1) = r.map (·.1) := by
    induction h with
    | nil => rfl
    | cons hxy _ ih => rw [List.map_cons, List.map_cons, ih, hxy.1]
  unfold periodOf TModel.getPeriod
  rw [hm]

theorem chosen_given {own default d : TimeData String} (h : Given own default d) :
    chosenFuel own default = d ∧ d ≠ .absent ∧ Written d := by
  cases h with
  | own hw hne =>
    refine ⟨?_, ?_, hw⟩
    · unfold chosenFuel
      rw [if_pos]
      cases hw with
      | plain a => simp only [truthy, decide_eq_true_eq]; exact fun e => hne (by rw [e])
      | dates kvs hne' _ _ =>
        cases kvs with
        | nil => exact absurd rfl hne'
        | cons a l => rfl
    · cases hw <;> exact fun h => by cases h
  | default hw =>
    refine ⟨by unfold chosenFuel; rw [if_neg (by simp [truthy])], ?_, hw⟩
    cases hw <;> exact fun h => by cases h

theorem resolveFuel_eq {target : Period} (ht : target.start < target.stop) {own default d : TimeData String}
    (h : Given own default d) (fuelOf : String → Option φ) :
    ∃ r, Good target d r ∧ resolveFuel fuelOf target own default = r.mapM (resolveOne fuelOf) := by
  obtain ⟨h1, h2, hw⟩ := chosen_given h
  obtain ⟨r, hr, hg⟩ := restricted target ht hw
  refine ⟨r, hg, ?_⟩
  unfold resolveFuel
  rw [h1]
  cases d with
  | absent => exact absurd rfl h2
  | plain a => simp only [hr]
  | dict kvs => simp only [hr]

/-! ### Consumers -/

theorem mapConsumer_eq {target : Period} (ht : target.start < target.stop) (fuelOf : String → Option φ)
    {default d : TimeData String} {c : YConsumer} (hg : Given c.fuel default d) (hu : Written c.usage) :
    ∃ ru rf, Good target c.usage ru ∧ Good target d rf ∧ (ru = [] → mapConsumer fuelOf target default c = .ok none) ∧
      (ru ≠ [] → mapConsumer fuelOf target default c = (do
        let m ← rf.mapM (resolveOne fuelOf)
        checkCovered ru m
        .ok (some ⟨componentKind c.usage, ru, m⟩))) := by
  obtain ⟨ru, hru, hgu⟩ := restricted target ht hu
  obtain ⟨rf, hgf, hrf⟩ := resolveFuel_eq ht hg fuelOf
  refine ⟨ru, rf, hgu, hgf, ?_, ?_⟩
  · rintro rfl
    unfold mapConsumer
    rw [hru]
  · intro hne
    obtain ⟨a, l, rfl⟩ := List.exists_cons_of_ne_nil hne
    unfold mapConsumer
    rw [hru]
    dsimp only
    rw [create_ok hgu.sorted, hrf]
    simp only [Bind.bind, Except.bind]
    cases hm : rf.mapM (resolveOne fuelOf) with
    | error e => rfl
    | ok m =>
      dsimp only
      rw [create_ok (forall₂_sorted (resolve_forall₂ fuelOf hm) hgf.sorted)]

/-- The check of the constructors, in terms of what the definitions say. -/
theorem covered_iff {target : Period} (hmax : target.stop ≤ dtMax) {d : TimeData String} {e : TimeData α} (hd : Written d)
    (he : Written e) {re : List (Period × α)} {rf : List (Period × String)} (hge : Good target e re) (hgf : Good target d rf)
    {fuelOf : String → Option φ} {m : List (Period × φ)}
    (hm : List.Forall₂ (fun x y => y.1 = x.1 ∧ fuelOf x.2 = some y.2) rf m) (hne : re ≠ []) :
    (checkCovered re m = .ok () ↔ ∀ t u, At target t → Says e t u → ∃ n, Says d t n) ∧
    (rf = [] → checkCovered re m = .error .index) ∧
    (rf ≠ [] → checkCovered re m ≠ .ok () → ∃ s s', checkCovered re m =
      .error (.notCovered ⟨s, target.stop⟩ ⟨s', target.stop⟩) ∧ s < s' ∧ (∃ u, Says e s u) ∧ ∃ n, Says d s' n) := by
  obtain ⟨s, hs, hst, hts, hsu, hmin⟩ := period_good hmax he hge hne
  unfold checkCovered
  rw [hs, forall₂_period hm]
  simp only [Bind.bind, Except.bind]
  by_cases hrf : rf = []
  · subst hrf
    have : periodOf ([] : List (Period × String)) = .error .index := rfl
    rw [this]
    refine ⟨?_, fun _ => rfl, fun h => absurd rfl h⟩
    constructor
    · intro h; cases h
    · intro h
      exfalso
      obtain ⟨u, hu⟩ := hsu
      obtain ⟨n, hn⟩ := h s u ⟨hts, hst⟩ hu
      exact good_nonempty hgf ⟨hts, hst⟩ hn rfl
  · obtain ⟨s', hs', hst', hts', hsu', hmin'⟩ := period_good hmax hd hgf hrf
    rw [hs']
    dsimp only
    have hiff : (Period.mk s' target.stop).containsPeriod ⟨s, target.stop⟩ = true ↔ s' ≤ s := by
      unfold Period.containsPeriod
      simp only [Bool.and_eq_true, decide_eq_true_eq]
      omega
    refine ⟨?_, fun h => absurd h hrf, ?_⟩
    · constructor
      · intro h t u htt hu
        have hc : s' ≤ s := by
          by_contra hc
          rw [if_neg (by rw [hiff]; exact hc)] at h
          cases h
        have := hmin t htt ⟨u, hu⟩
        obtain ⟨n, hn⟩ := hsu'
        exact hn.later hd (by omega) (by have := htt.2; omega)
      · intro h
        obtain ⟨u, hu⟩ := hsu
        rw [if_pos (hiff.2 (hmin' s ⟨hts, hst⟩ (h s u ⟨hts, hst⟩ hu)))]
    · intro _ h
      have hc : ¬ s' ≤ s := by
        intro hc
        rw [if_pos (hiff.2 hc)] at h
        exact h rfl
      exact ⟨s, s', by rw [if_neg (by rw [hiff]; exact hc)], by omega, hsu, hsu'⟩

/-- **C100 (the fuel of a consumer).** A consumer that is accepted has at every moment of the run exactly the fuel that its own
definition names then — or that of the installation, if it has none — and has a fuel whenever it has a model. -/
theorem C100_fuel {target : Period} (ht : target.start < target.stop) (hmax : target.stop ≤ dtMax) (fuelOf : String → Option φ)
    {default d : TimeData String} {c : YConsumer} (hg : Given c.fuel default d) (hu : Written c.usage) (k : Consumer φ)
    (h : mapConsumer fuelOf target default c = .ok (some k)) :
    (∀ t f, TModel.getModel k.fuel t = .ok f ↔ At target t ∧ ∃ n, Says d t n ∧ fuelOf n = some f) ∧
    (∀ t u, TModel.getModel k.usage t = .ok u ↔ At target t ∧ Says c.usage t u) ∧
    (∀ t u, TModel.getModel k.usage t = .ok u → ∃ f, TModel.getModel k.fuel t = .ok f) := by
  obtain ⟨ru, rf, hgu, hgf, h0, h1⟩ := mapConsumer_eq ht fuelOf hg hu
  have hne : ru ≠ [] := by
    intro e
    rw [h0 e] at h
    cases Except.ok.inj h
  rw [h1 hne] at h
  simp only [Bind.bind, Except.bind] at h
  cases hm : rf.mapM (resolveOne fuelOf) with
  | error e => rw [hm] at h; cases h
  | ok m =>
    rw [hm] at h
    dsimp only at h
    cases hc : checkCovered ru m with
    | error e => rw [hc] at h; cases h
    | ok x =>
      rw [hc] at h
      have h := Option.some.inj (Except.ok.inj h)
      subst h
      have hf := resolve_forall₂ fuelOf hm
      have hfuel : ∀ t f, TModel.getModel m t = .ok f ↔ At target t ∧ ∃ n, Says d t n ∧ fuelOf n = some f := by
        intro t f
        rw [getModel_sorted (forall₂_sorted hf hgf.sorted), forall₂_inForce hf]
        constructor
        · rintro ⟨n, hn, hnf⟩
          have := (hgf.gives t n).1 hn
          exact ⟨this.1, n, this.2, hnf⟩
        · rintro ⟨htt, n, hn, hnf⟩
          exact ⟨n, (hgf.gives t n).2 ⟨htt, hn⟩, hnf⟩
      have husage : ∀ t u, TModel.getModel ru t = .ok u ↔ At target t ∧ Says c.usage t u := by
        intro t u
        rw [getModel_sorted hgu.sorted, hgu.gives]
      refine ⟨hfuel, husage, ?_⟩
      intro t u htu
      obtain ⟨htt, hs⟩ := (husage t u).1 htu
      obtain ⟨n, hn⟩ := (covered_iff hmax (chosen_given hg).2.2 hu hgu hgf hf hne).1.1 (by rw [hc]) t u htt hs
      obtain ⟨p, hp, hpt⟩ := (hgf.gives t n).2 ⟨htt, hn⟩
      have : ∀ {r : List (Period × String)} {m : List (Period × φ)},
          List.Forall₂ (fun x y => y.1 = x.1 ∧ fuelOf x.2 = some y.2) r m → ∀ x ∈ r, ∃ f, fuelOf x.2 = some f := by
        intro r m h
        induction h with
        | nil => intro x hx; cases hx
        | cons hxy _ ih =>
          intro x hx
          rcases List.mem_cons.1 hx with rfl | hx
          · exact ⟨_, hxy.2⟩
          · exact ih x hx
      obtain ⟨f, hff⟩ := this hf _ hp
      exact ⟨f, (hfuel t f).2 ⟨htt, n, hn, hff⟩⟩

/-- **C100 (which consumers are accepted).** Exactly those that have a model at some moment of the run, whose fuels that are named
at some moment of the run are all there, and that have a fuel whenever they have a model. -/
theorem C100_accepted {target : Period} (ht : target.start < target.stop) (hmax : target.stop ≤ dtMax)
    (fuelOf : String → Option φ) {default d : TimeData String} {c : YConsumer} (hg : Given c.fuel default d)
    (hu : Written c.usage) :
    (∃ k, mapConsumer fuelOf target default c = .ok (some k)) ↔
      (∃ t u, At target t ∧ Says c.usage t u) ∧ (∀ t n, At target t → Says d t n → ∃ f, fuelOf n = some f) ∧
      (∀ t u, At target t → Says c.usage t u → ∃ n, Says d t n) := by
  obtain ⟨ru, rf, hgu, hgf, h0, h1⟩ := mapConsumer_eq ht fuelOf hg hu
  by_cases hne : ru = []
  · rw [h0 hne]
    constructor
    · rintro ⟨k, hk⟩; cases Except.ok.inj hk
    · rintro ⟨⟨t, u, htt, hs⟩, _⟩
      exact absurd hne (good_nonempty hgu htt hs)
  · rw [h1 hne]
    simp only [Bind.bind, Except.bind]
    have hex : ∃ t u, At target t ∧ Says c.usage t u := by
      obtain ⟨a, l, rfl⟩ := List.exists_cons_of_ne_nil hne
      exact ⟨_, _, (hgu.gives _ _).1 ⟨a.1, List.mem_cons_self, Int.le_refl _, hgu.proper a List.mem_cons_self⟩⟩
    cases hm : rf.mapM (resolveOne fuelOf) with
    | error e =>
      dsimp only
      constructor
      · rintro ⟨k, hk⟩; cases hk
      · rintro ⟨_, hn, _⟩
        exfalso
        obtain ⟨m, hm'⟩ := resolve_total fuelOf (r := rf) (fun x hx => by
          have := (hgf.gives x.1.start x.2).1 ⟨x.1, hx, Int.le_refl _, hgf.proper x hx⟩
          exact hn _ _ this.1 this.2)
        rw [hm] at hm'
        cases hm'
    | ok m =>
      dsimp only
      have hf := resolve_forall₂ fuelOf hm
      have hcov := (covered_iff hmax (chosen_given hg).2.2 hu hgu hgf hf hne).1
      have hnames : ∀ t n, At target t → Says d t n → ∃ f, fuelOf n = some f := by
        intro t n htt hn
        obtain ⟨p, hp, _⟩ := (hgf.gives t n).2 ⟨htt, hn⟩
        by_contra hno
        have hnone : fuelOf n = none := by
          cases hfn : fuelOf n with
          | none => rfl
          | some f => exact absurd ⟨f, hfn⟩ hno
        obtain ⟨y, _, _, he⟩ := resolve_fails fuelOf hp hnone
        rw [hm] at he
        cases he
      cases hc : checkCovered ru m with
      | error e =>
        dsimp only
        constructor
        · rintro ⟨k, hk⟩; cases hk
        · rintro ⟨_, _, hcv⟩
          have := hcov.2 hcv
          rw [hc] at this
          cases this
      | ok x =>
        exact ⟨fun _ => ⟨hex, hnames, hcov.1 (by rw [hc])⟩, fun _ => ⟨_, rfl⟩⟩

/-- **C100 (which consumers are left out).** Exactly those without a model at all moments of the run, whatever fuel they have. -/
theorem C100_left_out {target : Period} (ht : target.start < target.stop) (fuelOf : String → Option φ)
    (default : TimeData String) {c : YConsumer} (hu : Written c.usage) :
    mapConsumer fuelOf target default c = .ok none ↔ ∀ t u, At target t → ¬ Says c.usage t u := by
  obtain ⟨ru, hru, hgu⟩ := restricted target ht hu
  unfold mapConsumer
  rw [hru]
  cases ru with
  | nil =>
    constructor
    · intro _ t u htt hs
      exact good_nonempty hgu htt hs rfl
    · intro _; rfl
  | cons a l =>
    dsimp only
    constructor
    · intro h
      exfalso
      simp only [Bind.bind, Except.bind] at h
      rw [create_ok hgu.sorted] at h
      dsimp only at h
      cases h1 : resolveFuel fuelOf target c.fuel default with
      | error e => rw [h1] at h; cases h
      | ok m =>
        rw [h1] at h
        dsimp only at h
        cases h2 : temporal m with
        | error e => rw [h2] at h; cases h
        | ok m' =>
          rw [h2] at h
          dsimp only at h
          cases h3 : checkCovered (a :: l) m' with
          | error e => rw [h3] at h; cases h
          | ok x => rw [h3] at h; cases Except.ok.inj h
    · intro h
      have := (hgu.gives _ _).1 ⟨a.1, List.mem_cons_self, Int.le_refl _, hgu.proper a List.mem_cons_self⟩
      exact absurd this.2 (h _ _ this.1)

/-- **C100 (why a consumer is refused).** Without any fuel, because there is none. With an unknown fuel that is named at some
moment of the run, because of such a name. If all fuels are known but a fuel is missing at the first moment `s` at which it is
needed — with the two periods that do not fit — but see the finding below. -/
theorem C100_refused {target : Period} (ht : target.start < target.stop) (hmax : target.stop ≤ dtMax)
    (fuelOf : String → Option φ) {c : YConsumer} (hu : Written c.usage) (t₀ : DateTime) (u₀ : Usage) (ht₀ : At target t₀)
    (hs₀ : Says c.usage t₀ u₀) :
    (c.fuel = .absent → mapConsumer fuelOf target .absent c = .error .missingFuel) ∧
    (∀ default d, Given c.fuel default d →
      (∀ t n, At target t → Says d t n → fuelOf n = none →
        ∃ t' n', At target t' ∧ Says d t' n' ∧ fuelOf n' = none ∧
          mapConsumer fuelOf target default c = .error (.invalidReference n')) ∧
      ((∀ t n, At target t → Says d t n → ∃ f, fuelOf n = some f) → (∃ t n, At target t ∧ Says d t n) →
        (∃ t u, At target t ∧ Says c.usage t u ∧ ∀ n, ¬ Says d t n) →
        ∃ s s', mapConsumer fuelOf target default c = .error (.notCovered ⟨s, target.stop⟩ ⟨s', target.stop⟩) ∧ s < s' ∧
          (∃ u, Says c.usage s u) ∧ ∃ n, Says d s' n)) := by
  constructor
  · intro hf
    obtain ⟨ru, hru, hgu⟩ := restricted target ht hu
    have hne := good_nonempty hgu ht₀ hs₀
    obtain ⟨a, l, rfl⟩ := List.exists_cons_of_ne_nil hne
    unfold mapConsumer
    rw [hru]
    dsimp only
    rw [create_ok hgu.sorted, hf]
    rfl
  · intro default d hg
    obtain ⟨ru, rf, hgu, hgf, _, h1⟩ := mapConsumer_eq ht fuelOf hg hu
    have hne := good_nonempty hgu ht₀ hs₀
    rw [h1 hne]
    constructor
    · intro t n htt hn hnone
      obtain ⟨p, hp, _⟩ := (hgf.gives t n).2 ⟨htt, hn⟩
      obtain ⟨y, hy, hyn, he⟩ := resolve_fails fuelOf hp hnone
      have := (hgf.gives y.1.start y.2).1 ⟨y.1, hy, Int.le_refl _, hgf.proper y hy⟩
      refine ⟨_, y.2, this.1, this.2, hyn, ?_⟩
      rw [he]
      rfl
    · rintro hknown ⟨t₁, n₁, ht₁, hn₁⟩ ⟨t, u, htt, hs, hno⟩
      obtain ⟨m, hm⟩ := resolve_total fuelOf (r := rf) (fun x hx => by
        have := (hgf.gives x.1.start x.2).1 ⟨x.1, hx, Int.le_refl _, hgf.proper x hx⟩
        exact hknown _ _ this.1 this.2)
      have hf := resolve_forall₂ fuelOf hm
      obtain ⟨hc1, _, hc3⟩ := covered_iff hmax (chosen_given hg).2.2 hu hgu hgf hf hne
      have hbad : checkCovered ru m ≠ .ok () := by
        intro h
        obtain ⟨n, hn⟩ := hc1.1 h t u htt hs
        exact hno n hn
      obtain ⟨s, s', he, hlt, hx, hy⟩ := hc3 (good_nonempty hgf ht₁ hn₁) hbad
      refine ⟨s, s', ?_, hlt, hx, hy⟩
      rw [hm]
      simp only [Bind.bind, Except.bind, he]

/-- **FINDING.** If no fuel is given at any moment of the run (all its dates are after the end), there is no message to the user:
the check ends with an IndexError. -/
theorem C100_late_fuel {target : Period} (ht : target.start < target.stop) (hmax : target.stop ≤ dtMax)
    (fuelOf : String → Option φ) {c : YConsumer} (hu : Written c.usage) (t₀ : DateTime) (u₀ : Usage) (ht₀ : At target t₀)
    (hs₀ : Says c.usage t₀ u₀) (default d : TimeData String) (hg : Given c.fuel default d)
    (hno : ∀ t n, At target t → ¬ Says d t n) : mapConsumer fuelOf target default c = .error .index := by
  obtain ⟨ru, rf, hgu, hgf, _, h1⟩ := mapConsumer_eq ht fuelOf hg hu
  have hne := good_nonempty hgu ht₀ hs₀
  have hrf : rf = [] := by
    cases rf with
    | nil => rfl
    | cons a l =>
      have := (hgf.gives _ _).1 ⟨a.1, List.mem_cons_self, Int.le_refl _, hgf.proper a List.mem_cons_self⟩
      exact absurd this.2 (hno _ _ this.1)
  rw [h1 hne]
  subst hrf
  obtain ⟨_, hc2, _⟩ := covered_iff hmax (chosen_given hg).2.2 hu hgu hgf (fuelOf := fuelOf) .nil hne
  have : ([] : List (Period × String)).mapM (resolveOne fuelOf) = .ok [] := rfl
  rw [this]
  simp only [Bind.bind, Except.bind, hc2 rfl]

/-! ### Generator sets -/

theorem mapGenset_eq {target : Period} (ht : target.start < target.stop) (fuelOf : String → Option φ) (modelOf : String → Option γ)
    {default d : TimeData String} {g : YGenset} (hg : Given g.fuel default d) (hu : Written g.electricity2fuel) :
    ∃ ru rf, Good target g.electricity2fuel ru ∧ Good target d rf ∧
      mapGenset fuelOf modelOf target default g = (do
        let m ← rf.mapM (resolveOne fuelOf)
        let x ← ru.mapM (resolveOne modelOf)
        checkCovered x m
        .ok ⟨x, m⟩) := by
  obtain ⟨ru, hru, hgu⟩ := restricted target ht hu
  obtain ⟨rf, hgf, hrf⟩ := resolveFuel_eq ht hg fuelOf
  refine ⟨ru, rf, hgu, hgf, ?_⟩
  unfold mapGenset
  rw [hrf]
  simp only [Bind.bind, Except.bind]
  cases hm : rf.mapM (resolveOne fuelOf) with
  | error e => rfl
  | ok m =>
    dsimp only
    rw [create_ok (forall₂_sorted (resolve_forall₂ fuelOf hm) hgf.sorted)]
    dsimp only
    rw [hru]
    dsimp only
    cases hx : ru.mapM (resolveOne modelOf) with
    | error e => rfl
    | ok x =>
      dsimp only
      rw [create_ok (forall₂_sorted (resolve_forall₂ modelOf hx) hgu.sorted)]

/-- `checkCovered` only looks at the periods. -/
theorem checkCovered_congr {used : List (Period × α)} {used' : List (Period × γ)} {fuel : List (Period × φ)}
    (h : periodOf used = periodOf used') : checkCovered used fuel = checkCovered used' fuel := by
  unfold checkCovered
  rw [h]

/-- **C100 (generator sets).** A generator set that is accepted has at every moment of the run the fuel and the model that the
file gives it then, and a fuel whenever it has a model. -/
theorem C100_genset {target : Period} (ht : target.start < target.stop) (hmax : target.stop ≤ dtMax) (fuelOf : String → Option φ)
    (modelOf : String → Option γ) {default d : TimeData String} {g : YGenset} (hg : Given g.fuel default d)
    (hu : Written g.electricity2fuel) (k : Genset γ φ) (h : mapGenset fuelOf modelOf target default g = .ok k) :
    (∀ t f, TModel.getModel k.fuel t = .ok f ↔ At target t ∧ ∃ n, Says d t n ∧ fuelOf n = some f) ∧
    (∀ t x, TModel.getModel k.models t = .ok x ↔ At target t ∧ ∃ n, Says g.electricity2fuel t n ∧ modelOf n = some x) ∧
    (∀ t x, TModel.getModel k.models t = .ok x → ∃ f, TModel.getModel k.fuel t = .ok f) := by
  obtain ⟨ru, rf, hgu, hgf, he⟩ := mapGenset_eq ht fuelOf modelOf hg hu
  rw [he] at h
  simp only [Bind.bind, Except.bind] at h
  cases hm : rf.mapM (resolveOne fuelOf) with
  | error e => rw [hm] at h; cases h
  | ok m =>
    rw [hm] at h
    dsimp only at h
    cases hx : ru.mapM (resolveOne modelOf) with
    | error e => rw [hx] at h; cases h
    | ok x =>
      rw [hx] at h
      dsimp only at h
      cases hc : checkCovered x m with
      | error e => rw [hc] at h; cases h
      | ok y =>
        rw [hc] at h
        have h := Except.ok.inj h
        subst h
        have hf := resolve_forall₂ fuelOf hm
        have hf' := resolve_forall₂ modelOf hx
        have table : ∀ {β : Type} {of : String → Option β} {d : TimeData String} {r : List (Period × String)}
            {m : List (Period × β)}, Good target d r → List.Forall₂ (fun x y => y.1 = x.1 ∧ of x.2 = some y.2) r m →
            ∀ t f, TModel.getModel m t = .ok f ↔ At target t ∧ ∃ n, Says d t n ∧ of n = some f := by
          intro β of d r m hg hf t f
          rw [getModel_sorted (forall₂_sorted hf hg.sorted), forall₂_inForce hf]
          constructor
          · rintro ⟨n, hn, hnf⟩
            have := (hg.gives t n).1 hn
            exact ⟨this.1, n, this.2, hnf⟩
          · rintro ⟨htt, n, hn, hnf⟩
            exact ⟨n, (hg.gives t n).2 ⟨htt, hn⟩, hnf⟩
        refine ⟨table hgf hf, table hgu hf', ?_⟩
        intro t v htv
        obtain ⟨htt, n, hn, _⟩ := (table hgu hf' t v).1 htv
        have hne := good_nonempty hgu htt hn
        rw [checkCovered_congr (forall₂_period hf')] at hc
        obtain ⟨n', hn'⟩ := (covered_iff hmax (chosen_given hg).2.2 hu hgu hgf hf hne).1.1 (by rw [hc]) t n htt hn
        obtain ⟨p, hp, _⟩ := (hgf.gives t n').2 ⟨htt, hn'⟩
        cases hfn : fuelOf n' with
        | none =>
          obtain ⟨z, _, _, hz⟩ := resolve_fails fuelOf hp hfn
          rw [hm] at hz
          cases hz
        | some f => exact ⟨f, (table hgf hf t f).2 ⟨htt, n', hn', hfn⟩⟩

/-- **FINDING.** A generator set whose first model comes after the end of the run is not left out like a consumer, and is not
refused with a message: the check ends with an IndexError. -/
theorem C100_late_genset {target : Period} (ht : target.start < target.stop) (fuelOf : String → Option φ)
    (modelOf : String → Option γ) {default d : TimeData String} {g : YGenset} (hg : Given g.fuel default d)
    (hu : Written g.electricity2fuel) (hknown : ∀ n, ∃ f, fuelOf n = some f)
    (hno : ∀ t n, At target t → ¬ Says g.electricity2fuel t n) :
    mapGenset fuelOf modelOf target default g = .error .index := by
  obtain ⟨ru, rf, hgu, hgf, he⟩ := mapGenset_eq ht fuelOf modelOf hg hu
  have hru : ru = [] := by
    cases ru with
    | nil => rfl
    | cons a l =>
      have := (hgu.gives _ _).1 ⟨a.1, List.mem_cons_self, Int.le_refl _, hgu.proper a List.mem_cons_self⟩
      exact absurd this.2 (hno _ _ this.1)
  obtain ⟨m, hm⟩ := resolve_total fuelOf (r := rf) fun x _ => hknown x.2
  rw [he, hm, hru]
  rfl

/-! ### Kinds -/

/-- The kinds of the energy usage models of the file. -/
inductive IsOf : Usage → Kind → Prop
  | direct : IsOf .direct .generic
  | tabulated : IsOf .tabulated .generic
  | compressor : IsOf .compressor .compressor
  | multipleStreams : IsOf .multipleStreams .compressor
  | pump : IsOf .pump .pump
  | compressorSystem : IsOf .compressorSystem .compressorSystem
  | pumpSystem : IsOf .pumpSystem .pumpSystem

/-- The models that a definition has at some date. -/
def In : TimeData α → α → Prop
  | .absent, _ => False
  | .plain a, u => u = a
  | .dict kvs, u => ∃ key, (key, u) ∈ kvs

theorem isOf_iff (u : Usage) (k : Kind) : IsOf u k ↔ modelKind u = k := by
  constructor
  · intro h; cases h <;> rfl
  · rintro rfl; cases u <;> constructor

/-- **C100 (the kind of a consumer).** If all its models are of one kind, the consumer is of this kind; otherwise it is a generic
consumer. -/
theorem C100_kind (usage : TimeData Usage) (k : Kind) :
    componentKind usage = k ↔
      ((∃ u, In usage u) ∧ ∀ u, In usage u → IsOf u k) ∨
      (k = .generic ∧ ¬ ∃ k', (∃ u, In usage u) ∧ ∀ u, In usage u → IsOf u k') := by
  unfold componentKind
  have hin : ∀ k', (((∃ u, In usage u) ∧ ∀ u, In usage u → IsOf u k') ↔
      allModels usage ≠ [] ∧ ∀ u ∈ allModels usage, modelKind u = k') := by
    intro k'
    have : ∀ u, In usage u ↔ u ∈ allModels usage := by
      intro u
      cases usage with
      | absent => simp [In, allModels]
      | plain a => simp [In, allModels]
      | dict kvs => simp [In, allModels]
    simp only [this, isOf_iff, ne_eq, List.eq_nil_iff_forall_not_mem, not_forall, not_not]
  simp only [hin]
  generalize allModels usage = us
  have hone : ∀ k', ((us.map modelKind).dedup = [k'] ↔ us ≠ [] ∧ ∀ u ∈ us, modelKind u = k') := by
    intro k'
    constructor
    · intro h
      have hmem : ∀ x, x ∈ us.map modelKind ↔ x = k' := by
        intro x
        rw [← List.mem_dedup, h, List.mem_singleton]
      refine ⟨?_, fun u hu => (hmem _).1 (List.mem_map_of_mem hu)⟩
      rintro rfl
      exact absurd ((hmem k').2 rfl) (by simp)
    · rintro ⟨hne, hall⟩
      have hnd := List.nodup_dedup (us.map modelKind)
      have hmem : ∀ x, x ∈ (us.map modelKind).dedup ↔ x = k' := by
        intro x
        rw [List.mem_dedup, List.mem_map]
        constructor
        · rintro ⟨u, hu, rfl⟩; exact hall u hu
        · rintro rfl
          obtain ⟨u, l, rfl⟩ := List.exists_cons_of_ne_nil hne
          exact ⟨u, List.mem_cons_self, hall u List.mem_cons_self⟩
      match hd : (us.map modelKind).dedup, hnd, hmem with
      | [], _, hmem => exact absurd ((hmem k').2 rfl) (by simp)
      | [x], _, hmem => rw [(hmem x).1 List.mem_cons_self]
      | x :: y :: l, hnd, hmem =>
        have h1 := (hmem x).1 List.mem_cons_self
        have h2 := (hmem y).1 (List.mem_cons_of_mem _ List.mem_cons_self)
        rw [List.nodup_cons] at hnd
        exact absurd (by rw [h1, ← h2]; exact List.mem_cons_self) hnd.1
  by_cases h : ∃ k', us ≠ [] ∧ ∀ u ∈ us, modelKind u = k'
  · obtain ⟨k', hk'⟩ := h
    rw [(hone k').2 hk']
    dsimp only
    constructor
    · rintro rfl; exact .inl hk'
    · rintro (hk | ⟨_, hno⟩)
      · obtain ⟨u, l, rfl⟩ := List.exists_cons_of_ne_nil hk.1
        rw [← hk'.2 u List.mem_cons_self, hk.2 u List.mem_cons_self]
      · exact absurd ⟨k', hk'⟩ hno
  · split
    · rename_i k' hk'
      exact absurd ⟨k', (hone k').1 hk'⟩ h
    · constructor
      · rintro rfl; exact .inr ⟨rfl, h⟩
      · rintro (hk | ⟨rfl, _⟩)
        · exact absurd ⟨k, hk⟩ h
        · rfl

/-- **FINDING.** The kind also depends on models that are not used: a consumer that is a pump during the whole run is called a generic
consumer if it was a compressor before. -/
theorem C100_kind_unused (start d₁ d₂ : DateTime) (h₁ : d₁ < d₂) (h₂ : d₂ < start) (stop : DateTime) (h₃ : start < stop)
    (h₄ : stop ≤ dtMax) (name : String) (f : φ) :
    ∃ k, mapConsumer (fun _ => some f) ⟨start, stop⟩ .absent
        ⟨.dict [(.date d₁, name)], .dict [(.date d₁, .compressor), (.date d₂, .pump)]⟩ = .ok (some k) ∧
      (∀ t u, TModel.getModel k.usage t = .ok u → u = .pump) ∧ k.kind = .generic := by
  have hw : Written (.dict [(Key.date d₁, Usage.compressor), (.date d₂, .pump)]) :=
    Written.dates (α := Usage) [(d₁, Usage.compressor), (d₂, Usage.pump)] (by simp) (by simpa using h₁) (by
      intro kv hkv
      simp only [List.mem_cons, List.not_mem_nil, or_false] at hkv
      rcases hkv with rfl | rfl <;> simp only <;> omega)
  have hwf : Written (.dict [(Key.date d₁, name)]) :=
    .dates [(d₁, name)] (by simp) (by simp) (by
      intro kv hkv
      simp only [List.mem_singleton] at hkv
      subst hkv
      simp only
      omega)
  have hg : Given (.dict [(Key.date d₁, name)]) .absent (.dict [(Key.date d₁, name)]) := .own hwf (by simp)
  have hsays : ∀ t u, At ⟨start, stop⟩ t → (Says (.dict [(Key.date d₁, Usage.compressor), (.date d₂, .pump)]) t u ↔ u = .pump) := by
    intro t u htt
    have h1 := htt.1
    have h2 := htt.2
    simp only at h1 h2
    unfold Says InForceDates
    simp only [dateKeys, List.mem_cons, List.not_mem_nil, or_false, Prod.mk.injEq]
    constructor
    · rintro ⟨_, k, (⟨rfl, rfl⟩ | ⟨rfl, rfl⟩), _, hmax⟩
      · have := hmax (d₂, .pump) (.inr rfl) (by simp only; omega)
        simp only at this
        omega
      · rfl
    · rintro rfl
      refine ⟨by omega, d₂, .inr ⟨rfl, rfl⟩, by omega, ?_⟩
      rintro kv (rfl | rfl) _ <;> simp only <;> omega
  have hex := (C100_accepted (φ := φ) (target := ⟨start, stop⟩) h₃ h₄ (fun _ => some f)
    (c := ⟨.dict [(.date d₁, name)], .dict [(.date d₁, .compressor), (.date d₂, .pump)]⟩) hg hw).2
    ⟨⟨start, .pump, ⟨Int.le_refl _, h₃⟩, (hsays _ _ ⟨Int.le_refl _, h₃⟩).2 rfl⟩, fun _ _ _ _ => ⟨f, rfl⟩, by
      intro t u htt _
      have h1 := htt.1
      have h2 := htt.2
      simp only at h1 h2
      refine ⟨name, ?_⟩
      unfold Says InForceDates
      simp only [dateKeys, List.mem_singleton]
      refine ⟨by omega, d₁, rfl, by omega, ?_⟩
      rintro kv rfl _
      exact Int.le_refl _⟩
  obtain ⟨k, hk⟩ := hex
  refine ⟨k, hk, ?_, ?_⟩
  · intro t u htu
    obtain ⟨htt, hs⟩ := ((C100_fuel h₃ h₄ _ hg hw k hk).2.1 t u).1 htu
    exact (hsays t u htt).1 hs
  · obtain ⟨ru, rf, _, _, h0, h1⟩ := mapConsumer_eq (φ := φ) (target := ⟨start, stop⟩) h₃ (fun _ => some f)
      (c := ⟨.dict [(.date d₁, name)], .dict [(.date d₁, .compressor), (.date d₂, .pump)]⟩) hg hw
    by_cases hne : ru = []
    · rw [h0 hne] at hk
      cases Except.ok.inj hk
    · rw [h1 hne] at hk
      simp only [Bind.bind, Except.bind] at hk
      cases hm : rf.mapM (resolveOne fun _ => some f) with
      | error e => rw [hm] at hk; cases hk
      | ok m =>
        rw [hm] at hk
        dsimp only at hk
        cases hc : checkCovered ru m with
        | error e => rw [hc] at hk; cases hk
        | ok x =>
          rw [hc] at hk
          have hk := Option.some.inj (Except.ok.inj hk)
          subst hk
          simp [componentKind, allModels, modelKind, List.dedup_cons_of_notMem]

/-! ### Examples -/

/-- The own fuel counts, also where it gives nothing: the installation's fuel does not fill the gap. -/
example : mapConsumer (fun n => if n = "gas" then some 1 else if n = "diesel" then some 2 else none) ⟨10, 40⟩ (.plain "diesel")
    ⟨.dict [(.date 5, "gas"), (.date 20, "diesel")], .dict [(.date 15, .compressor), (.date 30, .multipleStreams)]⟩ =
    .ok (some ⟨.compressor, [(⟨15, 30⟩, .compressor), (⟨30, 40⟩, .multipleStreams)], [(⟨10, 20⟩, 1), (⟨20, 40⟩, 2)]⟩) := by
  unfold mapConsumer
  rw [show defineTimeModelForPeriod (.dict [(Key.date 15, Usage.compressor), (.date 30, .multipleStreams)]) ⟨10, 40⟩ =
    .ok (some [(⟨15, 30⟩, .compressor), (⟨30, 40⟩, .multipleStreams)]) from by decide +kernel]
  dsimp only
  rw [create_ok (by decide), show resolveFuel (fun n => if n = "gas" then some 1 else if n = "diesel" then some 2 else none)
    ⟨10, 40⟩ (.dict [(.date 5, "gas"), (.date 20, "diesel")]) (.plain "diesel") =
    .ok [(⟨10, 20⟩, 1), (⟨20, 40⟩, 2)] from by decide +kernel]
  simp only [Bind.bind, Except.bind]
  rw [create_ok (by decide)]
  decide +kernel

example : mapConsumer (fun n => if n = "gas" then some 1 else if n = "diesel" then some 2 else none) ⟨10, 40⟩ (.plain "diesel")
    ⟨.dict [(.date 20, "gas")], .plain .pump⟩ = .error (.notCovered ⟨10, 40⟩ ⟨20, 40⟩) := by decide +kernel

example : mapConsumer (fun n => if n = "gas" then some 1 else if n = "diesel" then some 2 else none) ⟨10, 40⟩ (.plain "diesel")
    ⟨.absent, .plain .pump⟩ = .ok (some ⟨.pump, [(⟨10, 40⟩, .pump)], [(⟨10, 40⟩, 2)]⟩) := by decide +kernel

example : mapConsumer (fun n => if n = "gas" then some 1 else none) ⟨10, 40⟩ (.plain "diesel") ⟨.dict [(.date 5, "diesel"),
    (.date 8, "gas")], .plain .direct⟩ = .ok (some ⟨.generic, [(⟨10, 40⟩, .direct)], [(⟨10, 40⟩, 1)]⟩) := by decide +kernel

end Verif.C100
