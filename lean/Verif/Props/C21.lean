import Verif.Model.Inputs
import Verif.Props.C04
import Verif.Props.C20

/-!
# C21: regularity is always a fraction
-/

namespace Verif.C21
open Verif.Time Verif.Rates Verif.Expression Verif.Variables Verif.Inputs Verif.C19 Verif.C20

/-! ## Specification -/

/-- A number between zero and one. -/
def Fraction (x : Fl) : Prop := ∃ q : ℚ, x = some q ∧ 0 ≤ q ∧ q ≤ 1

/-- `x` is what the expression `e` written by the user gives in period `k`. -/
def Specified (pow : Fl → Fl → Fl) (vars : Vars) (k : Nat) (e : ExprInput) (x : Fl) : Prop :=
  ∃ ex, Expr.make e.tokens = .ok ex ∧ Means pow (valueIn vars k) ex.tree x

/-- The user's expression is accepted by the parser and can be evaluated. -/
def Good (ev : VarMap) (e : ExprInput) : Prop :=
  ∃ ex, Expr.make e.tokens = .ok ex ∧ Usable ev.vars ev.periods.length ex

/-- Dates strictly inside the calculated time are dates of the time vector. -/
def OnVector (ev : VarMap) (own : Period) (d : Int) : Prop := own.start < d → d < own.stop → d ∈ ev.timeVector

/-! ## Helper lemmas -/

theorem isFraction_iff (x : Fl) : isFraction x = true ↔ Fraction x := by
  cases x with
  | none => simp [isFraction, Fraction]
  | some q => simp [isFraction, Fraction]

theorem validate_cases (pow : Fl → Fl → Fl) (r : Reg) (vs : List Fl) (h : r.values pow = .ok vs) :
    ((∀ v ∈ vs, Fraction v) → r.validate pow = .ok r) ∧
    ((∃ v ∈ vs, ¬ Fraction v) → r.validate pow = .error .validation) := by
  unfold Reg.validate
  simp only [h, Bind.bind, Except.bind]
  constructor
  · intro hv
    rw [if_neg]; · rfl
    simp only [List.any_eq_true, not_exists, not_and, Bool.not_eq_true', Bool.not_eq_false]
    intro v hm
    exact (isFraction_iff v).mpr (hv v hm)
  · rintro ⟨v, hm, hn⟩
    rw [if_pos]
    simp only [List.any_eq_true, Bool.not_eq_true']
    refine ⟨v, hm, ?_⟩
    rw [← Bool.not_eq_true, isFraction_iff]
    exact hn

theorem inForce_some {model : List (Period × Expr)} {q : Period} {e : Expr} (h : inForce model q = some e) :
    ∃ p, (p, e) ∈ model ∧ Covers p q := by
  induction model with
  | nil => simp [inForce] at h
  | cons a l ih =>
    obtain ⟨p, e'⟩ := a
    unfold inForce at h
    split at h
    · rename_i e'' he
      obtain rfl := Option.some.inj h
      obtain ⟨p', h1, h2⟩ := ih he
      exact ⟨p', by simp [h1], h2⟩
    · split at h
      · obtain rfl := Option.some.inj h
        exact ⟨p, by simp, by assumption⟩
      · simp at h

theorem inForce_none {model : List (Period × Expr)} {q : Period} (h : inForce model q = none) :
    ∀ pe ∈ model, ¬ Covers pe.1 q := by
  induction model with
  | nil => simp
  | cons a l ih =>
    obtain ⟨p, e'⟩ := a
    unfold inForce at h
    split at h
    · simp at h
    · rename_i he
      split at h
      · simp at h
      · intro pe hpe
        rcases List.mem_cons.mp hpe with rfl | hpe
        · assumption
        · exact ih he pe hpe

/-- A definition period aligned with the time vector covers a calculated period iff it holds at its start. -/
theorem covers_iff {ev : VarMap} (hb : Built ev) {own p : Period} (ho : ev.period = .ok own)
    (ha : min p.stop own.stop ∈ ev.timeVector) (k : Nat) (hk : k < ev.periods.length) :
    Covers p ev.periods[k] ↔ C04.At p (ev.periods[k]).start := by
  obtain ⟨hl, hsort, hper⟩ := built_facts hb
  obtain ⟨h0, hn, hown⟩ := built_period hb
  rw [hown] at ho
  obtain rfl := Except.ok.inj ho
  obtain ⟨k1, k2, k3⟩ := hper k hk
  obtain ⟨j, hj1, hj2⟩ := List.mem_iff_getElem.mp ha
  have g1 := (sorted_lt hsort k1 k2).mpr (by omega)
  have g2 := (sorted_le hsort k2 hn).mpr (by omega)
  have g3 := (sorted_lt hsort k1 hn).mpr (by omega)
  have g4 := sorted_lt hsort k1 hj1
  have g5 := sorted_le hsort k2 hj1
  unfold Covers C04.At
  rw [k3]
  simp only at hj2 ⊢
  rw [hj2] at g4 g5
  constructor
  · rintro ⟨h1, h2⟩; omega
  · rintro ⟨h1, h2⟩
    have : k < j := g4.mp (by omega)
    have := g5.mpr (by omega)
    omega

theorem create_periods (r : List (Period × Expr))
    (hs : r.Pairwise (fun a b => a.1.stop ≤ b.1.start ∧ a.1.start < b.1.start)) :
    TModel.create (r.map (fun pm => (Key.period pm.1, pm.2))) = .ok r := by
  unfold TModel.create
  have hsorted : r.map (·.1) = (r.map (·.1)).mergeSort Period.le := by
    rw [eq_mergeSort_iff, List.pairwise_map]
    refine hs.imp ?_
    intro a b hab
    simp only [Period.le, Bool.or_eq_true, Bool.and_eq_true, decide_eq_true_eq]
    omega
  cases r with
  | nil => simp [dateKeys, datesToPeriods]
  | cons a l =>
    have h1 : ¬ (((a :: l).map (fun pm => (Key.period pm.1, pm.2))).all (fun kv => kv.1.isDate) = true) := by
      simp [Key.isDate]
    have h2 : ((a :: l).map (fun pm => (Key.period pm.1, pm.2))).all (fun kv => kv.1.isPeriod) = true := by
      simp [Key.isPeriod]
    simp only [if_neg h1, h2, if_true, periodKeys_map_period]
    rw [if_pos hsorted]

theorem setupValues_ok (ms : List (Period × ExprInput)) (ev : VarMap) (h : ∀ pe ∈ ms, Good ev pe.2) :
    ∃ es, setupValues ms = .ok es ∧ es.map (·.1) = ms.map (·.1) ∧
      (∀ pe ∈ es, Usable ev.vars ev.periods.length pe.2 ∧
        ∃ i, (pe.1, i) ∈ ms ∧ Expr.make i.tokens = .ok pe.2) ∧
      (∀ p i, (p, i) ∈ ms → ∃ ex, (p, ex) ∈ es ∧ Expr.make i.tokens = .ok ex) := by
  induction ms with
  | nil => exact ⟨[], rfl, rfl, by simp, by simp⟩
  | cons a l ih =>
    obtain ⟨p, i⟩ := a
    obtain ⟨ex, h1, h2⟩ := h (p, i) (by simp)
    obtain ⟨es, e1, e2, e3, e4⟩ := ih (fun pe hpe => h pe (by simp [hpe]))
    refine ⟨(p, ex) :: es, ?_, by simp [e2], ?_, ?_⟩
    · unfold setupValues at e1 ⊢
      rw [List.mapM_cons, e1]
      simp only [ExprInput.setup] at h1 ⊢
      rw [h1]; rfl
    · intro pe hpe
      rcases List.mem_cons.mp hpe with rfl | hpe
      · exact ⟨h2, i, by simp, h1⟩
      · obtain ⟨u, i', hi, hm⟩ := e3 pe hpe
        exact ⟨u, i', by simp [hi], hm⟩
    · intro p' i' hpi
      rcases List.mem_cons.mp hpi with heq | hpi
      · obtain ⟨rfl, rfl⟩ := Prod.mk.inj heq
        exact ⟨ex, by simp, h1⟩
      · obtain ⟨ex', hx, hm⟩ := e4 p' i' hpi
        exact ⟨ex', by simp [hx], hm⟩

theorem vector_member {ev : VarMap} (hb : Built ev) {own : Period} (ho : ev.period = .ok own) :
    own.start ∈ ev.timeVector ∧ own.stop ∈ ev.timeVector ∧ own.start < own.stop := by
  obtain ⟨hl, hsort, hper⟩ := built_facts hb
  obtain ⟨h0, hn, hown⟩ := built_period hb
  rw [hown] at ho
  obtain rfl := Except.ok.inj ho
  refine ⟨List.getElem_mem _, List.getElem_mem _, (sorted_lt hsort h0 hn).mpr ?_⟩
  obtain ⟨q, hq, -⟩ := built_dates hb
  have : ev.periods ≠ [] := by intro h; rw [h] at hq; simp at hq
  exact List.length_pos_of_ne_nil this

theorem aligned_of {ev : VarMap} (hb : Built ev) {own p : Period} (ho : ev.period = .ok own) (hp : p.start < p.stop)
    (hs : OnVector ev own p.start) (he : OnVector ev own p.stop) (hi : Period.intersects p own = true) :
    Aligned ev own p := by
  obtain ⟨h1, h2, h3⟩ := vector_member hb ho
  have hint : p.start < own.stop ∧ own.start < p.stop := by
    simp [Period.intersects, Period.containsDate] at hi
    omega
  unfold OnVector at hs he
  unfold Aligned
  constructor
  · by_cases h : own.start < p.start
    · rw [max_eq_left (by omega)]; exact hs h (by omega)
    · rw [max_eq_right (by omega)]; exact h1
  · by_cases h : p.stop < own.stop
    · rw [min_eq_left (by omega)]
      exact he hint.2 h
    · rw [min_eq_right (by omega)]; exact h2

/-! ## Property -/

/-- An accepted regularity has a value for every period and every value is a fraction. -/
theorem C21_accepted_is_fraction (pow : Fl → Fl → Fl) (ev : VarMap) (target : Period) (input : RegInput) (r : Reg)
    (h : Reg.make pow ev target input = .ok r) : ∃ vs, r.values pow = .ok vs ∧ ∀ v ∈ vs, Fraction v := by
  unfold Reg.make at h
  simp only [Bind.bind, Except.bind] at h
  split at h; · simp at h
  rename_i m hm
  unfold Reg.validate at h
  simp only [Bind.bind, Except.bind] at h
  split at h; · simp at h
  rename_i vs hvs
  split at h; · simp at h
  rename_i hany
  obtain rfl := Except.ok.inj h
  refine ⟨vs, hvs, fun v hv => ?_⟩
  rw [← isFraction_iff]
  simp only [List.any_eq_true, not_exists, not_and, Bool.not_eq_true', Bool.not_eq_false] at hany
  exact hany v hv

/-- A single expression (other than the number 0 and the empty text) is used as specified in every period of the
target, zero outside; it is accepted exactly when all these values are fractions. -/
theorem C21_expression_partial (pow : Fl → Fl → Fl) (ev : VarMap) (hb : Built ev) (own target : Period)
    (ho : ev.period = .ok own) (ht : target.start < target.stop)
    (hs : OnVector ev own target.start) (he : OnVector ev own target.stop)
    (e : ExprInput) (hg : Good ev e) (h0 : e ≠ .number 0) (hne : e ≠ .text []) :
    ∃ vs, vs.length = ev.periods.length ∧
      (∀ (k : Nat) (hk : k < ev.periods.length) (hk' : k < vs.length),
        (C04.At target (ev.periods[k]).start → Specified pow ev.vars k e vs[k]) ∧
        (¬ C04.At target (ev.periods[k]).start → vs[k] = some 0)) ∧
      ((∀ v ∈ vs, Fraction v) → ∃ r, Reg.make pow ev target (.plain e) = .ok r ∧ r.values pow = .ok vs) ∧
      ((∃ v ∈ vs, ¬ Fraction v) → Reg.make pow ev target (.plain e) = .error .validation) := by
  obtain ⟨ex, hx, hu⟩ := hg
  have htr : e.truthy = true := by
    cases e with
    | number v => simp [ExprInput.truthy] at h0 ⊢; exact h0
    | text ts => simp [ExprInput.truthy] at hne ⊢; exact hne
  have hnorm : normalize (RegInput.plain e).orDefault target = .ok [(target, ex)] := by
    simp only [RegInput.orDefault, htr, if_true, normalize, ExprInput.setup, hx, Bind.bind, Except.bind,
      defineTimeModelForPeriod, defaultTemporalModel, List.foldl_cons, List.foldl_nil]
    have : Period.intersects target target = true := by
      simp [Period.intersects, Period.containsDate]; omega
    simp only [clipStep, this, if_true, Period.intersection, Bool.not_true, Bool.false_eq_true, if_false, dictSet,
      max_self, min_self]
    exact create_periods [(target, ex)] (by simp)
  obtain ⟨vs, h1, h2, h3⟩ := C20_in_force pow ev hb own ho [(target, ex)] (by
    intro pe hpe
    simp at hpe
    subst hpe
    exact ⟨ht, hu, fun hi => aligned_of hb ho ht hs he hi⟩)
  have hmake : Reg.make pow ev target (.plain e) = Reg.validate pow ⟨target, ev, [(target, ex)]⟩ := by
    unfold Reg.make
    rw [hnorm]; rfl
  have hval : (Reg.mk target ev [(target, ex)]).values pow = .ok vs := h1
  refine ⟨vs, h2, fun k hk hk' => ?_, fun hf => ?_, fun hf => ?_⟩
  · have hv := h3 k hk hk'
    have hcov : Covers target ev.periods[k] ↔ C04.At target (ev.periods[k]).start := by
      by_cases hi : Period.intersects target own = true
      · exact covers_iff hb ho (aligned_of hb ho ht hs he hi).2 k hk
      · have hi' : Period.intersects target own = false := by simpa using hi
        have hnc := not_covered hb ho hi' k hk
        refine ⟨fun h => absurd h hnc, fun h => ?_⟩
        exfalso
        obtain ⟨hl, hsort, hper⟩ := built_facts hb
        obtain ⟨z0, hn, hown⟩ := built_period hb
        rw [hown] at ho
        obtain rfl := Except.ok.inj ho
        obtain ⟨k1, k2, k3⟩ := hper k hk
        rw [k3] at h
        unfold C04.At at h
        have g1 := (sorted_lt hsort k1 hn).mpr (by omega)
        have g2 := (sorted_le hsort z0 k1).mpr (by omega)
        simp [Period.intersects, Period.containsDate] at hi'
        simp only at h
        omega
    rw [← hcov]
    unfold ValueInForce at hv
    simp only [inForce] at hv
    constructor
    · intro hc
      rw [if_pos hc] at hv
      exact ⟨ex, hx, hv⟩
    · intro hc
      rw [if_neg hc] at hv
      exact hv
  · exact ⟨_, by rw [hmake]; exact (validate_cases pow _ vs hval).1 hf, hval⟩
  · rw [hmake]; exact (validate_cases pow _ vs hval).2 hf

/-- Values given by date: the definition in force at the start of a period (within the target) is used as specified,
zero is used where none is in force; accepted exactly when all values are fractions. -/
theorem C21_by_date (pow : Fl → Fl → Fl) (ev : VarMap) (hb : Built ev) (own target : Period)
    (ho : ev.period = .ok own) (ht : target.start < target.stop)
    (hs : OnVector ev own target.start) (he : OnVector ev own target.stop) (hend : own.stop ≤ dtMax)
    (kvs : List (Int × ExprInput)) (hne : kvs ≠ []) (hasc : (kvs.map (·.1)).Pairwise (· < ·))
    (hmax : ∀ kv ∈ kvs, kv.1 < dtMax) (hon : ∀ kv ∈ kvs, OnVector ev own kv.1) (hg : ∀ kv ∈ kvs, Good ev kv.2) :
    ∃ vs, vs.length = ev.periods.length ∧
      (∀ (k : Nat) (hk : k < ev.periods.length) (hk' : k < vs.length),
        (∀ e, C04.At target (ev.periods[k]).start → C04.InForceDates kvs (ev.periods[k]).start e →
          Specified pow ev.vars k e vs[k]) ∧
        ((¬ ∃ e, C04.At target (ev.periods[k]).start ∧ C04.InForceDates kvs (ev.periods[k]).start e) →
          vs[k] = some 0)) ∧
      ((∀ v ∈ vs, Fraction v) →
        ∃ r, Reg.make pow ev target (.dict (kvs.map (fun kv => (Key.date kv.1, kv.2)))) = .ok r ∧
          r.values pow = .ok vs) ∧
      ((∃ v ∈ vs, ¬ Fraction v) →
        Reg.make pow ev target (.dict (kvs.map (fun kv => (Key.date kv.1, kv.2)))) = .error .validation) := by
  obtain ⟨r, hr, hf⟩ := C04.C04_clip_dates kvs target ht hne hasc hmax
  have hd := C04.datesToPeriods_defs hasc hmax
  have hr' : r = (datesToPeriods kvs).filterMap (C04.clip target) := by
    unfold defineTimeModelForPeriod defaultTemporalModel at hr
    have h1 : (kvs.map (fun kv => (Key.date kv.1, kv.2))).any (fun kv => kv.1.isDate) = true := by
      cases kvs with
      | nil => exact absurd rfl hne
      | cons a l => simp [Key.isDate]
    have h2 : (kvs.map (fun kv => (Key.date kv.1, kv.2))).all (fun kv => kv.1.isDate) = true := by
      simp [Key.isDate]
    simp only [h1, h2, if_true, dateKeys_map_date] at hr
    rw [C04.foldl_clip target ht _ [] hd (by simp)] at hr
    simpa using hr.symm
  have hsrt := C04.filterMap_sorted target (datesToPeriods kvs) ht hd.1
    ((datesToPeriods_pairwise hasc).imp (fun h => h.1))
  rw [← hr'] at hsrt
  -- facts about each clipped definition
  have hstop : ∀ (l : List (Int × ExprInput)) (pm : Period × ExprInput), pm ∈ datesToPeriods l →
      pm.1.stop = dtMax ∨ ∃ kv ∈ l, pm.1.stop = kv.1 := by
    intro l
    induction l with
    | nil => simp [datesToPeriods]
    | cons a l ih =>
      intro pm hpm
      cases l with
      | nil => simp [datesToPeriods] at hpm; subst hpm; left; rfl
      | cons b l =>
        simp only [datesToPeriods, List.mem_cons] at hpm
        rcases hpm with rfl | hpm
        · right; exact ⟨b, by simp, rfl⟩
        · rcases ih pm (by simpa [datesToPeriods] using hpm) with h | ⟨kv, h1, h2⟩
          · exact .inl h
          · exact .inr ⟨kv, by simp at h1 ⊢; tauto, h2⟩
  have hfacts : ∀ pm ∈ r, pm.1.start < pm.1.stop ∧ Good ev pm.2 ∧ OnVector ev own pm.1.start ∧
      OnVector ev own pm.1.stop := by
    intro pm hpm
    rw [hr'] at hpm
    obtain ⟨d, hd1, hd2⟩ := List.mem_filterMap.mp hpm
    obtain ⟨c1, c2, -⟩ := C04.clip_at (hd.1 d hd1) ht hd2
    have hst := datesToPeriods_mem_start hd1
    have cb := C04.clip_bounds hd2
    refine ⟨c2, by rw [c1]; exact hg _ hst, ?_, ?_⟩
    · rw [cb]
      simp only
      have := hon _ hst
      rcases max_choice d.1.start target.start with h | h <;> rw [h]
      · exact this
      · exact hs
    · rw [cb]
      simp only
      rcases min_choice d.1.stop target.stop with h | h <;> rw [h]
      · rcases hstop kvs d hd1 with h' | ⟨kv, h1, h2⟩
        · rw [h']; intro _ hlt; omega
        · rw [h2]; exact hon kv h1
      · exact he
  obtain ⟨es, e1, e2, e3, e4⟩ := setupValues_ok r ev (fun pe hpe => (hfacts pe hpe).2.1)
  have hes : es.Pairwise (fun a b => a.1.stop ≤ b.1.start ∧ a.1.start < b.1.start) := by
    have : (es.map (·.1)).Pairwise (fun a b : Period => a.stop ≤ b.start ∧ a.start < b.start) := by
      rw [e2, List.pairwise_map]; exact hsrt
    rwa [List.pairwise_map] at this
  have hesf : ∀ pe ∈ es, pe.1.start < pe.1.stop ∧ Usable ev.vars ev.periods.length pe.2 ∧
      (Period.intersects pe.1 own = true → Aligned ev own pe.1) := by
    intro pe hpe
    obtain ⟨u, i, hi, hm⟩ := e3 pe hpe
    obtain ⟨a, -, b, c⟩ := hfacts _ hi
    exact ⟨a, u, fun hint => aligned_of hb ho a b c hint⟩
  obtain ⟨vs, h1, h2, h3⟩ := C20_in_force pow ev hb own ho es hesf
  have hmake : Reg.make pow ev target (.dict (kvs.map (fun kv => (Key.date kv.1, kv.2)))) =
      Reg.validate pow ⟨target, ev, es⟩ := by
    unfold Reg.make
    have : (RegInput.dict (kvs.map (fun kv => (Key.date kv.1, kv.2)))).orDefault =
        .dict (kvs.map (fun kv => (Key.date kv.1, kv.2))) := by
      cases kvs with
      | nil => exact absurd rfl hne
      | cons a l => rfl
    rw [this]
    simp only [normalize, hr, e1, create_periods es hes, Bind.bind, Except.bind, toInvalid]
  have hval : (Reg.mk target ev es).values pow = .ok vs := h1
  have hcov : ∀ pe ∈ es, ∀ (k : Nat) (hk : k < ev.periods.length),
      Covers pe.1 ev.periods[k] ↔ C04.At pe.1 (ev.periods[k]).start := by
    intro pe hpe k hk
    obtain ⟨a, -, hal⟩ := hesf pe hpe
    by_cases hi : Period.intersects pe.1 own = true
    · exact covers_iff hb ho (hal hi).2 k hk
    · have hi' : Period.intersects pe.1 own = false := by simpa using hi
      refine ⟨fun h => absurd h (not_covered hb ho hi' k hk), fun h => ?_⟩
      exfalso
      obtain ⟨hl, hsort, hper⟩ := built_facts hb
      obtain ⟨z0, hn, hown⟩ := built_period hb
      rw [hown] at ho
      obtain rfl := Except.ok.inj ho
      obtain ⟨k1, k2, k3⟩ := hper k hk
      rw [k3] at h
      unfold C04.At at h
      have g1 := (sorted_lt hsort k1 hn).mpr (by omega)
      have g2 := (sorted_le hsort z0 k1).mpr (by omega)
      simp [Period.intersects, Period.containsDate] at hi'
      simp only at h
      omega
  refine ⟨vs, h2, fun k hk hk' => ?_, fun hfr => ?_, fun hfr => ?_⟩
  · have hv := h3 k hk hk'
    unfold ValueInForce at hv
    constructor
    · intro e hat hin
      obtain ⟨p, hp, hpt⟩ := (hf _ _).mpr ⟨hat, hin⟩
      obtain ⟨ex, hx1, hx2⟩ := e4 p e hp
      have hc : Covers p ev.periods[k] := (hcov (p, ex) hx1 k hk).mpr hpt
      cases hif : inForce es ev.periods[k] with
      | none => exact absurd hc (inForce_none hif (p, ex) hx1)
      | some ex' =>
        rw [hif] at hv
        simp only at hv
        obtain ⟨p', hp', hc'⟩ := inForce_some hif
        have hpt' := (hcov _ hp' k hk).mp hc'
        -- the same definition, since definitions do not overlap
        have : (p, ex) = (p', ex') := by
          obtain ⟨i, hi, hie⟩ := List.mem_iff_getElem.mp hx1
          obtain ⟨j, hj, hje⟩ := List.mem_iff_getElem.mp hp'
          rcases Nat.lt_trichotomy i j with hlt | heq | hlt
          · have := List.pairwise_iff_getElem.mp hes i j hi hj hlt
            rw [hie, hje] at this
            unfold C04.At at hpt hpt'
            simp only at this hpt hpt'
            omega
          · subst heq; rw [← hie, ← hje]
          · have := List.pairwise_iff_getElem.mp hes j i hj hi hlt
            rw [hie, hje] at this
            unfold C04.At at hpt hpt'
            simp only at this hpt hpt'
            omega
        obtain ⟨rfl, rfl⟩ := Prod.mk.inj this
        exact ⟨ex, hx2, hv⟩
    · intro hno
      cases hif : inForce es ev.periods[k] with
      | none => rw [hif] at hv; exact hv
      | some ex' =>
        exfalso
        obtain ⟨p', hp', hc'⟩ := inForce_some hif
        have hpt' := (hcov _ hp' k hk).mp hc'
        obtain ⟨-, i, hi, -⟩ := e3 _ hp'
        have := (hf (ev.periods[k]).start i).mp ⟨p', hi, hpt'⟩
        exact hno ⟨i, this⟩
  · exact ⟨_, by rw [hmake]; exact (validate_cases pow _ vs hval).1 hfr, hval⟩
  · rw [hmake]; exact (validate_cases pow _ vs hval).2 hfr

/-- Without a regularity, the regularity is one in every period when the target is the whole calculated time. -/
theorem C21_default_is_one (pow : Fl → Fl → Fl) (ev : VarMap) (hb : Built ev) (own : Period)
    (ho : ev.period = .ok own) :
    ∃ r, Reg.make pow ev own .absent = .ok r ∧ r.values pow = .ok (List.replicate ev.periods.length (some 1)) := by
  obtain ⟨v1, v2, v3⟩ := vector_member hb ho
  have hg : Good ev (.number 1) := ⟨⟨[.num 1], .leaf (.num 1)⟩, by rfl, by rfl, by intro s; simp, by intro s hs; simp at hs⟩
  obtain ⟨vs, h1, h2, h3, -⟩ := C21_expression_partial pow ev hb own own ho v3 (fun _ _ => v1) (fun _ _ => v2)
    (.number 1) hg (by simp) (by simp)
  have hall : ∀ (k : Nat) (hk : k < vs.length), vs[k] = some 1 := by
    intro k hk
    have hk2 : k < ev.periods.length := by omega
    have hat : C04.At own (ev.periods[k]).start := by
      obtain ⟨hl, hsort, hper⟩ := built_facts hb
      obtain ⟨z0, hn, hown⟩ := built_period hb
      rw [hown] at ho
      obtain rfl := Except.ok.inj ho
      obtain ⟨k1, k2, k3⟩ := hper k hk2
      rw [k3]
      exact ⟨(sorted_le hsort z0 k1).mpr (by omega), (sorted_lt hsort k1 hn).mpr hk2⟩
    obtain ⟨ex, hx, hm⟩ := (h2 k hk2 hk).1 hat
    have : ex = ⟨[.num 1], .leaf (.num 1)⟩ := by
      have h : Expr.make [Token.num 1] = .ok ⟨[.num 1], .leaf (.num 1)⟩ := by rfl
      simp only [ExprInput.tokens, h] at hx
      exact (Except.ok.inj hx).symm
    subst this
    generalize vs[k] = x at hm ⊢
    cases hm; rfl
  have hvs : vs = List.replicate ev.periods.length (some 1) := by
    apply List.ext_getElem
    · simp [h1]
    · intro i hi _
      rw [hall i hi]; simp
  obtain ⟨r, hr1, hr2⟩ := h3 (by
    rw [hvs]; intro v hv
    rw [List.eq_of_mem_replicate hv]
    exact ⟨1, rfl, by decide, by decide⟩)
  refine ⟨r, ?_, by rw [hr2, hvs]⟩
  rw [← hr1]; rfl

/-- Finding: a regularity specified as the number 0 is silently replaced by the default. -/
theorem C21_zero_becomes_one (pow : Fl → Fl → Fl) (ev : VarMap) (hb : Built ev) (own : Period)
    (ho : ev.period = .ok own) :
    ∃ r, Reg.make pow ev own (.plain (.number 0)) = .ok r ∧
      r.values pow = .ok (List.replicate ev.periods.length (some 1)) := by
  obtain ⟨r, h1, h2⟩ := C21_default_is_one pow ev hb own ho
  exact ⟨r, by rw [← h1]; rfl, h2⟩

/-! ## Non-vacuity -/

/-- A map with two periods and a series `r`. -/
def sampleEv : VarMap := ⟨[⟨0, 10⟩, ⟨10, 20⟩], [0, 10, 20], [("r", [some (1/2), some 1])]⟩

example : Built sampleEv ∧ sampleEv.period = .ok ⟨0, 20⟩ := by
  refine ⟨⟨by decide, by rfl⟩, by rfl⟩

example : Good sampleEv (.text [.ref "r"]) :=
  ⟨⟨[.ref "r"], .leaf (.ref "r")⟩, by rfl, by rfl, by intro s; simp, by
    intro s hs; simp at hs; subst hs; exact ⟨_, rfl, rfl⟩⟩

example : sampleEv.evaluateTemporal (fun _ _ => none) [(⟨0, 20⟩, ⟨[.ref "r"], .leaf (.ref "r")⟩)] =
    .ok [some (1/2), some 1] := by decide +kernel

end Verif.C21
