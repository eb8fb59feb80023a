import Verif.Model.PumpMap
import Verif.Props.C19
import Verif.Props.C21
import Verif.Props.C57

/-!
# C113: pump process simulations from the YAML file to the results

The inputs of a mapped simulation are the values of its four expressions, period by period; a mapped simulation can be
evaluated in every period; a simulation is refused exactly when its chart or one of its values is.
-/

namespace Verif.C113
open Verif.Time (Period)
open Verif.Rates Verif.Expression Verif.Variables Verif.Inputs Verif.Charts Verif.ChartFile Verif.Pumps Verif.PumpMap
open Verif.C19 (Supported Available Built valueIn Means)

/-! ## Specification -/

/-- The expression is accepted by the parser and its names have values. -/
def Usable (ev : VarMap) (e : ExprInput) : Prop :=
  (∃ x, Expr.make e.tokens = .ok x) ∧ Supported e.tokens ∧ Available ev.vars ev.periods.length e.tokens

/-- The four expressions of a simulation are usable. -/
def AllUsable (ev : VarMap) (s : Sim) : Prop :=
  Usable ev s.rate ∧ Usable ev s.pressure ∧ Usable ev s.discharge ∧ Usable ev s.density

/-- `x` is the value of the expression in period `k`. -/
def Value (pow : Fl → Fl → Fl) (ev : VarMap) (e : ExprInput) (k : Nat) (x : Fl) : Prop :=
  ∃ t, Expr.make e.tokens = .ok t ∧ Means pow (valueIn ev.vars k) t.tree x

/-- Rate, suction pressure, discharge pressure and density. -/
structure Four where
  rate : Fl
  suction : Fl
  discharge : Fl
  density : Fl

/-- The values of the four expressions in period `k`. -/
def Values (pow : Fl → Fl → Fl) (ev : VarMap) (s : Sim) (k : Nat) (v : Four) : Prop :=
  Value pow ev s.rate k v.rate ∧ Value pow ev s.pressure k v.suction ∧ Value pow ev s.discharge k v.discharge ∧
    Value pow ev s.density k v.density

/-- Values a pump can work with. -/
structure Acceptable (v : Four) : Prop where
  rate : ∀ x, v.rate = some x → 0 ≤ x
  suction : ∀ x, v.suction = some x → 0 < x
  density : ∀ x, v.density = some x → 0 < x
  discharge : ∀ x, v.discharge = some x → 0 ≤ x
  running : ∀ x y, v.rate = some x → 0 < x → v.discharge = some y → 0 < y

/-- The input made from the values: mass rate per hour, and the suction pressure as the target of a pump that stands still
without a target of its own. -/
structure Operates (v : Four) (i : Input) : Prop where
  pressure : i.inlet.pressure = v.suction
  density : i.inlet.density = v.density
  mass : ∀ r q, v.rate = some r → v.density = some q → i.inlet.mass = some (r * q / 24)
  nan : v.rate = none ∨ v.density = none → i.inlet.mass = none
  target : (∃ r, v.rate = some r ∧ 0 < r) ∨ (∃ d, v.discharge = some d ∧ 0 < d) → i.discharge = v.discharge
  still : (¬ ∃ r, v.rate = some r ∧ 0 < r) → (¬ ∃ d, v.discharge = some d ∧ 0 < d) → i.discharge = v.suction

/-- The period lies inside the other one. -/
def Inside (p q : Period) : Prop := p.start ≤ q.start ∧ q.stop ≤ p.stop

/-! ## One input -/

theorem notPositive_iff (x : Fl) : notPositive x = true ↔ ∃ v, x = some v ∧ v ≤ 0 := by
  cases x <;> simp [notPositive]

theorem positive_iff (x : Fl) : positive x = true ↔ ∃ v, x = some v ∧ 0 < v := by
  cases x <;> simp [positive]

theorem isNegative_iff (x : Fl) : isNegative x = true ↔ ∃ v, x = some v ∧ v < 0 := by
  cases x <;> simp [isNegative]

/-- The part of `Acceptable` that is checked for one input. -/
structure Fine (v : Four) : Prop where
  suction : ∀ x, v.suction = some x → 0 < x
  density : ∀ x, v.density = some x → 0 < x
  running : ∀ x y, v.rate = some x → 0 < x → v.discharge = some y → 0 < y

theorem require_ok {x : Fl} (h : ∀ v, x = some v → 0 < v) : requirePositive x = .ok () := by
  unfold requirePositive
  rw [if_neg]
  intro hn
  obtain ⟨v, hv, h0⟩ := (notPositive_iff x).mp hn
  exact absurd (h v hv) (not_lt.mpr h0)

theorem require_error {x : Fl} (h : ¬ ∀ v, x = some v → 0 < v) : requirePositive x = .error .validation := by
  unfold requirePositive
  rw [if_pos]
  push Not at h
  obtain ⟨v, hv, h0⟩ := h
  exact (notPositive_iff x).mpr ⟨v, hv, h0⟩

theorem mass_nonneg {r q : Fl} (hr : ∀ x, r = some x → 0 ≤ x) (hq : ∀ x, q = some x → 0 < x) :
    isNegative (Fl.div (Fl.mul r q) (some 24)) = false := by
  cases r with
  | none => rfl
  | some r =>
    cases q with
    | none => rfl
    | some q =>
      have h1 := hr r rfl
      have h2 := hq q rfl
      have : 0 ≤ r * q / 24 := div_nonneg (mul_nonneg h1 h2.le) (by norm_num)
      simp [Fl.div, Fl.mul, isNegative, this]

theorem input_ok (v : Four) (hr : ∀ x, v.rate = some x → 0 ≤ x) (hf : Fine v) :
    ∃ i, toInput v.rate v.suction v.discharge v.density = .ok i ∧ Operates v i := by
  have hstream : fromRate v.rate v.suction v.density =
      .ok ⟨v.suction, v.density, Fl.div (Fl.mul v.rate v.density) (some 24)⟩ := by
    have hs : ∀ {x : Fl}, (∀ v, x = some v → 0 < v) → ¬ notPositive x = true := by
      intro x h hn
      obtain ⟨u, hu, h0⟩ := (notPositive_iff x).mp hn
      exact absurd (h u hu) (not_lt.mpr h0)
    unfold fromRate
    dsimp only
    rw [if_neg (hs hf.density), mass_nonneg hr hf.density, if_neg (by simp), if_neg (hs hf.suction)]
  have hmass : ∀ i : Input, i.inlet = ⟨v.suction, v.density, Fl.div (Fl.mul v.rate v.density) (some 24)⟩ →
      (∀ r q, v.rate = some r → v.density = some q → i.inlet.mass = some (r * q / 24)) ∧
      (v.rate = none ∨ v.density = none → i.inlet.mass = none) := by
    intro i hi
    rw [hi]
    constructor
    · intro r q h1 h2
      simp [h1, h2, Fl.div, Fl.mul]
    · rintro (h | h)
      · simp [h, Fl.div, Fl.mul]
      · cases hv : v.rate <;> simp [h, Fl.div, Fl.mul]
  unfold toInput
  rw [require_ok hf.suction, require_ok hf.density, hstream]
  simp only [Bind.bind, Except.bind, Pure.pure, Except.pure]
  unfold dischargeOf
  by_cases hp : positive v.rate = true
  · rw [if_pos hp]
    obtain ⟨r, h1, h2⟩ := (positive_iff _).mp hp
    rw [require_ok (fun y hy => hf.running r y h1 h2 hy)]
    refine ⟨_, rfl, rfl, rfl, (hmass _ rfl).1, (hmass _ rfl).2, fun _ => rfl, fun h => absurd ⟨r, h1, h2⟩ h⟩
  · rw [if_neg hp]
    refine ⟨_, rfl, rfl, rfl, (hmass _ rfl).1, (hmass _ rfl).2, ?_, ?_⟩
    · rintro (h | h)
      · exact absurd ((positive_iff _).mpr h) hp
      · dsimp only
        rw [if_pos ((positive_iff _).mpr h)]
    · intro _ h
      dsimp only
      rw [if_neg (fun hd => h ((positive_iff _).mp hd))]

theorem input_error (v : Four) (hr : ∀ x, v.rate = some x → 0 ≤ x) (hf : ¬ Fine v) :
    toInput v.rate v.suction v.discharge v.density = .error .validation := by
  unfold toInput
  by_cases h1 : ∀ x, v.suction = some x → 0 < x
  · by_cases h2 : ∀ x, v.density = some x → 0 < x
    · have h3 : ¬ ∀ x y, v.rate = some x → 0 < x → v.discharge = some y → 0 < y := fun h => hf ⟨h1, h2, h⟩
      push Not at h3
      obtain ⟨x, y, hx, hx0, hy, hy0⟩ := h3
      have hs : ∀ {x : Fl}, (∀ v, x = some v → 0 < v) → ¬ notPositive x = true := by
        intro x h hn
        obtain ⟨u, hu, h0⟩ := (notPositive_iff x).mp hn
        exact absurd (h u hu) (not_lt.mpr h0)
      rw [require_ok h1, require_ok h2]
      simp only [Bind.bind, Except.bind, Pure.pure, Except.pure]
      unfold fromRate
      dsimp only
      rw [if_neg (hs h2), mass_nonneg hr h2, if_neg (by simp), if_neg (hs h1)]
      dsimp only
      unfold dischargeOf
      rw [if_pos ((positive_iff _).mpr ⟨x, hx, hx0⟩),
        require_error (fun h => absurd (h y hy) (not_lt.mpr hy0))]
      rfl
    · rw [require_ok h1, require_error h2]; rfl
  · rw [require_error h1]; rfl

/-! ## All inputs -/

/-- The four values at one index. -/
def at4 (rs ss ds qs : List Fl) (k : Nat) (v : Four) : Prop :=
  rs[k]? = some v.rate ∧ ss[k]? = some v.suction ∧ ds[k]? = some v.discharge ∧ qs[k]? = some v.density

theorem inputs_spec (n : Nat) : ∀ (rs ss ds qs : List Fl), rs.length = n → ss.length = n → ds.length = n → qs.length = n →
    (∀ x ∈ rs, ∀ v, x = some v → 0 ≤ v) →
    ((∀ k v, at4 rs ss ds qs k v → Fine v) → ∃ is, toInputs rs ss ds qs = .ok is ∧ is.length = n ∧
      ∀ k v, at4 rs ss ds qs k v → ∃ i, is[k]? = some i ∧ Operates v i) ∧
    ((¬ ∀ k v, at4 rs ss ds qs k v → Fine v) → toInputs rs ss ds qs = .error .validation) := by
  induction n with
  | zero =>
    intro rs ss ds qs h1 h2 h3 h4 _
    cases List.length_eq_zero_iff.mp h1
    cases List.length_eq_zero_iff.mp h2
    cases List.length_eq_zero_iff.mp h3
    cases List.length_eq_zero_iff.mp h4
    refine ⟨fun _ => ⟨[], rfl, rfl, fun k v h => by simp [at4] at h⟩, fun h => absurd (fun k v h => ?_) h⟩
    simp [at4] at h
  | succ n ih =>
    intro rs ss ds qs h1 h2 h3 h4 hr
    obtain ⟨r, rs, rfl⟩ := List.exists_cons_of_length_eq_add_one h1
    obtain ⟨s, ss, rfl⟩ := List.exists_cons_of_length_eq_add_one h2
    obtain ⟨d, ds, rfl⟩ := List.exists_cons_of_length_eq_add_one h3
    obtain ⟨q, qs, rfl⟩ := List.exists_cons_of_length_eq_add_one h4
    simp only [List.length_cons, Nat.add_right_cancel_iff] at h1 h2 h3 h4
    obtain ⟨i1, i2⟩ := ih rs ss ds qs h1 h2 h3 h4 (fun x hx => hr x (List.mem_cons_of_mem _ hx))
    have hr0 : ∀ x, r = some x → 0 ≤ x := hr r (by simp)
    have hsucc : ∀ k v, at4 rs ss ds qs k v → at4 (r :: rs) (s :: ss) (d :: ds) (q :: qs) (k + 1) v := by
      intro k v h; simpa [at4] using h
    have hzero : at4 (r :: rs) (s :: ss) (d :: ds) (q :: qs) 0 ⟨r, s, d, q⟩ := by simp [at4]
    constructor
    · intro hall
      obtain ⟨i, hi, ho⟩ := input_ok ⟨r, s, d, q⟩ hr0 (hall 0 _ hzero)
      obtain ⟨is, his, hl, hat⟩ := i1 (fun k v h => hall (k + 1) v (hsucc k v h))
      refine ⟨i :: is, ?_, by simp [hl], ?_⟩
      · unfold toInputs
        rw [hi, his]
        rfl
      · intro k v h
        cases k with
        | zero =>
          obtain ⟨a, b, c, e⟩ := h
          simp only [List.getElem?_cons_zero, Option.some.injEq] at a b c e
          refine ⟨i, by simp, ?_⟩
          obtain ⟨vr, vs, vd, vq⟩ := v
          dsimp only at a b c e
          subst a b c e
          exact ho
        | succ k =>
          have : at4 rs ss ds qs k v := by simpa [at4] using h
          simpa using hat k v this
    · intro hn
      unfold toInputs
      by_cases hf : Fine ⟨r, s, d, q⟩
      · obtain ⟨i, hi, ho⟩ := input_ok ⟨r, s, d, q⟩ hr0 hf
        rw [hi, i2 ?_]
        · rfl
        · intro hall
          apply hn
          intro k v h
          cases k with
          | zero =>
            obtain ⟨a, b, c, e⟩ := h
            simp only [List.getElem?_cons_zero, Option.some.injEq] at a b c e
            obtain ⟨vr, vs, vd, vq⟩ := v
            dsimp only at a b c e
            subst a b c e
            exact hf
          | succ k => exact hall k v (by simpa [at4] using h)
      · have := input_error ⟨r, s, d, q⟩ hr0 hf
        dsimp only at this
        rw [this]; rfl

/-! ## The four series -/

theorem rates_eq (pow : Fl → Fl → Fl) {ev : VarMap} (hb : Built ev) {e : ExprInput} {x : Expr} {vs : List Fl}
    (hx : Expr.make e.tokens = .ok x) (hv : ev.evaluate pow x = .ok vs) (hl : vs.length = ev.periods.length) :
    rates pow ev e = if ∀ y ∈ vs, ∀ v, y = some v → 0 ≤ v then .ok vs else .error .validation := by
  obtain ⟨h0, hn, ho⟩ := C19.built_period hb
  obtain ⟨reg, hreg, hvals⟩ := C21.C21_default_is_one pow ev hb _ ho
  unfold rates
  rw [ho]
  simp only [Bind.bind, Except.bind]
  rw [hreg]
  simp only [TSE.make, ExprInput.setup, hx, Bind.bind, Except.bind, Pure.pure, Except.pure]
  unfold flowRate streamDayValues TSE.masked TSE.evaluated
  simp only [hv, Bind.bind, Except.bind, Pure.pure, Except.pure, maskApply, hvals]
  have hsd : Rates.toStreamDay vs (List.replicate ev.periods.length (some 1)) = .ok vs := by
    unfold Rates.toStreamDay
    rw [C19.npOp_same _ _ _ (by simp [hl])]
    congr 1
    apply List.ext_getElem
    · simp [hl]
    · intro k h1 h2
      simp only [List.getElem_zipWith, List.getElem_replicate, streamDayValue]
      rw [if_neg (by simp)]
      cases vs[k] <;> simp [Fl.div]
  rw [hsd]
  dsimp only
  by_cases h : ∀ y ∈ vs, ∀ v, y = some v → 0 ≤ v
  · rw [if_pos h, if_neg]
    rw [List.any_eq_true]
    rintro ⟨y, hy, hn⟩
    obtain ⟨v, rfl, h0⟩ := (isNegative_iff y).mp hn
    exact absurd (h _ hy v rfl) (not_le.mpr h0)
  · rw [if_neg h, if_pos]
    push Not at h
    obtain ⟨y, hy, v, rfl, h0⟩ := h
    exact List.any_eq_true.mpr ⟨_, hy, (isNegative_iff _).mpr ⟨v, rfl, h0⟩⟩

theorem pressures_eq (pow : Fl → Fl → Fl) {ev : VarMap} {e : ExprInput} {x : Expr} {vs : List Fl}
    (hx : Expr.make e.tokens = .ok x) (hv : ev.evaluate pow x = .ok vs) :
    pressures pow ev e = if ∀ y ∈ vs, ∀ v, y = some v → 0 ≤ v then .ok vs else .error .validation := by
  unfold pressures
  simp only [TSE.make, ExprInput.setup, hx, Bind.bind, Except.bind, Pure.pure, Except.pure]
  unfold Inputs.pressure TSE.evaluated
  simp only [hv, Bind.bind, Except.bind, Pure.pure, Except.pure, Option.getD_none]
  by_cases h : ∀ y ∈ vs, ∀ v, y = some v → 0 ≤ v
  · rw [if_pos h, if_neg]
    rw [List.any_eq_true]
    rintro ⟨⟨y, b⟩, hy, hn⟩
    rw [Bool.and_eq_true] at hn
    obtain ⟨v, hv, h0⟩ := (isNegative_iff _).mp hn.2
    exact absurd (h _ (List.of_mem_zip hy).1 v hv) (not_le.mpr h0)
  · rw [if_neg h, if_pos]
    push Not at h
    obtain ⟨y, hy, v, rfl, h0⟩ := h
    obtain ⟨k, hk, hke⟩ := List.mem_iff_getElem.mp hy
    rw [List.any_eq_true]
    refine ⟨(some v, true), ?_, by simp [isNegative, h0]⟩
    rw [List.mem_iff_getElem]
    exact ⟨k, by simp [hk], by simp [hke]⟩

theorem densities_eq (pow : Fl → Fl → Fl) {ev : VarMap} {e : ExprInput} {x : Expr} {vs : List Fl}
    (hx : Expr.make e.tokens = .ok x) (hv : ev.evaluate pow x = .ok vs) : densities pow ev e = .ok vs := by
  unfold densities
  simp only [TSE.make, ExprInput.setup, hx, Bind.bind, Except.bind, Pure.pure, Except.pure, TSE.evaluated, hv]

/-! ## One simulation -/

/-- The series of the values of an expression. -/
def Series (pow : Fl → Fl → Fl) (ev : VarMap) (e : ExprInput) (vs : List Fl) : Prop :=
  ∃ x, Expr.make e.tokens = .ok x ∧ ev.evaluate pow x = .ok vs ∧ vs.length = ev.periods.length

theorem map_spec (pow : Fl → Fl → Fl) (w : World) {ev : VarMap} (hb : Built ev) (s : Sim) {rs ss ds qs : List Fl}
    (hr : Series pow ev s.rate rs) (hs : Series pow ev s.pressure ss) (hd : Series pow ev s.discharge ds)
    (hq : Series pow ev s.density qs) (p : Pump) (hp : makePump w s = .ok p) :
    ((∀ k v, at4 rs ss ds qs k v → Acceptable v) → ∃ is, PumpMap.map pow w ev s = .ok ⟨s.name, p, is, ev.periods⟩ ∧
      is.length = ev.periods.length ∧ ∀ k v, at4 rs ss ds qs k v → ∃ i, is[k]? = some i ∧ Operates v i) ∧
    ((¬ ∀ k v, at4 rs ss ds qs k v → Acceptable v) → PumpMap.map pow w ev s = .error .validation) := by
  obtain ⟨xr, r1, r2, r3⟩ := hr
  obtain ⟨xs, s1, s2, s3⟩ := hs
  obtain ⟨xd, d1, d2, d3⟩ := hd
  obtain ⟨xq, q1, q2, q3⟩ := hq
  have hex : ∀ k, k < ev.periods.length → at4 rs ss ds qs k
      ⟨rs[k]?.getD none, ss[k]?.getD none, ds[k]?.getD none, qs[k]?.getD none⟩ := by
    intro k hk
    have a := List.getElem?_eq_getElem (l := rs) (i := k) (by omega)
    have b := List.getElem?_eq_getElem (l := ss) (i := k) (by omega)
    have c := List.getElem?_eq_getElem (l := ds) (i := k) (by omega)
    have d := List.getElem?_eq_getElem (l := qs) (i := k) (by omega)
    simp [at4, a, b, c, d]
  unfold PumpMap.map
  rw [hp, rates_eq pow hb r1 r2 r3, pressures_eq pow s1 s2, pressures_eq pow d1 d2, densities_eq pow q1 q2]
  have getr : (∀ k v, at4 rs ss ds qs k v → ∀ x, v.rate = some x → 0 ≤ x) ↔ ∀ y ∈ rs, ∀ v, y = some v → 0 ≤ v := by
    constructor
    · intro h y hy
      obtain ⟨k, hk, rfl⟩ := List.mem_iff_getElem.mp hy
      have := h k _ (hex k (by omega))
      simpa [List.getElem?_eq_getElem hk] using this
    · intro h k v hv x hx
      exact h v.rate (List.mem_of_getElem? hv.1) x hx
  have getd : (∀ k v, at4 rs ss ds qs k v → ∀ x, v.discharge = some x → 0 ≤ x) ↔ ∀ y ∈ ds, ∀ v, y = some v → 0 ≤ v := by
    constructor
    · intro h y hy
      obtain ⟨k, hk, rfl⟩ := List.mem_iff_getElem.mp hy
      have := h k _ (hex k (by omega))
      simpa [List.getElem?_eq_getElem hk] using this
    · intro h k v hv x hx
      exact h v.discharge (List.mem_of_getElem? hv.2.2.1) x hx
  have gets : (∀ k v, at4 rs ss ds qs k v → ∀ x, v.suction = some x → 0 < x) → ∀ y ∈ ss, ∀ v, y = some v → 0 ≤ v := by
    intro h y hy
    obtain ⟨k, hk, rfl⟩ := List.mem_iff_getElem.mp hy
    have := h k _ (hex k (by omega))
    intro v hv
    exact (this v (by simpa [List.getElem?_eq_getElem hk] using hv)).le
  by_cases c1 : ∀ y ∈ rs, ∀ v, y = some v → 0 ≤ v
  · by_cases c2 : ∀ y ∈ ss, ∀ v, y = some v → 0 ≤ v
    · by_cases c3 : ∀ y ∈ ds, ∀ v, y = some v → 0 ≤ v
      · rw [if_pos c1, if_pos c2, if_pos c3]
        obtain ⟨j1, j2⟩ := inputs_spec ev.periods.length rs ss ds qs r3 s3 d3 q3 c1
        simp only [ofTime, Bind.bind, Except.bind, Pure.pure, Except.pure]
        constructor
        · intro hall
          obtain ⟨is, h1, h2, h3⟩ := j1 (fun k v h => ⟨(hall k v h).suction, (hall k v h).density, (hall k v h).running⟩)
          refine ⟨is, ?_, h2, h3⟩
          rw [h1]
          dsimp only
          rw [if_neg (by simp [h2])]
        · intro hn
          rw [j2 ?_]
          intro hall
          apply hn
          intro k v h
          exact ⟨getr.mpr c1 k v h, (hall k v h).suction, (hall k v h).density, getd.mpr c3 k v h, (hall k v h).running⟩
      · rw [if_pos c1, if_pos c2, if_neg c3]
        exact ⟨fun h => absurd (getd.mp fun k v hv => (h k v hv).discharge) c3, fun _ => rfl⟩
    · rw [if_pos c1, if_neg c2]
      exact ⟨fun h => absurd (gets fun k v hv => (h k v hv).suction) c2, fun _ => rfl⟩
  · rw [if_neg c1]
    exact ⟨fun h => absurd (getr.mp fun k v hv => (h k v hv).rate) c1, fun _ => rfl⟩

theorem map_pump {pow : Fl → Fl → Fl} {w : World} {ev : VarMap} {s : Sim} {m : Mapped}
    (h : PumpMap.map pow w ev s = .ok m) : makePump w s = .ok m.pump ∧ m.name = s.name := by
  unfold PumpMap.map at h
  cases hp : makePump w s with
  | error e => rw [hp] at h; cases h
  | ok p =>
    rw [hp] at h
    simp only [Bind.bind, Except.bind, Pure.pure, Except.pure] at h
    repeat' split at h
    all_goals first
      | cases h
    all_goals exact ⟨rfl, rfl⟩

/-! ## The pump -/

/-- The pump of a simulation: the curves of its file, and the minimum flow given or else the smallest rate of the
curves. -/
structure HasPump (w : World) (s : Sim) (p : Pump) (c : PumpChart) (mem : Resource.Memory) (d : Data) : Prop where
  reference : w.references.lookup s.chart = some (some c)
  margin : c.headMargin = 0
  resource : w.resources.lookup c.file = some mem
  single : c.single = true → readSingle w.reader c.units mem none = .ok d
  several : c.single = false → readVariable w.reader c.units mem none = .ok d
  curves : p.chart.curves = d.curves
  efficient : ∀ k ∈ d.curves, ∀ q ∈ k.pts, 0 < q.eff
  given : ∀ m, s.minFlow = some m → p.minFlow = m ∧ ∃ k ∈ d.curves, k.minRate ≤ m
  default : s.minFlow = none → (∃ k ∈ d.curves, p.minFlow = k.minRate) ∧ ∀ k ∈ d.curves, p.minFlow ≤ k.minRate
  fresh : p.discharge = none

theorem curve_fractions {rates heads effs : List ℚ} {s : ℚ} {c : Curve} (h : Curve.make rates heads effs s = .ok c) :
    ∀ p ∈ c.pts, 0 ≤ p.eff ∧ p.eff ≤ 1 := by
  unfold Curve.make at h
  split at h
  · cases h
  rename_i he
  split at h
  · cases h
  split at h
  · cases h
  split at h
  · cases h
  rename_i p rest hl
  have h := Except.ok.inj h
  subst h
  intro q hq
  have hq : q ∈ p :: rest := hq
  rw [← hl, List.mem_insertionSort] at hq
  rw [List.mem_iff_getElem] at hq
  obtain ⟨k, hk, rfl⟩ := hq
  rw [List.getElem_zipWith]
  push Not at he
  simp only [List.getElem_zip]
  exact he _ (List.getElem_mem _)

theorem makeCurve_fractions {u : ChartUnits} {s : ℚ} {rates heads effs : List ℚ} {c : Curve}
    (h : makeCurve u s rates heads effs = .ok c) : ∀ p ∈ c.pts, 0 ≤ p.eff ∧ p.eff ≤ 1 := by
  unfold makeCurve at h
  split at h
  · rename_i k hk
    have h := Except.ok.inj h
    subst h
    exact curve_fractions hk
  · cases h

theorem bind_ok {ε α β : Type} {x : Except ε α} {f : α → Except ε β} {b : β} (h : x >>= f = .ok b) :
    ∃ a, x = .ok a ∧ f a = .ok b := by
  cases x with
  | error e => cases h
  | ok a => exact ⟨a, rfl, h⟩

theorem mapM_mem {ε α β : Type} (f : α → Except ε β) : ∀ (l : List α) (r : List β), l.mapM f = .ok r →
    List.Forall₂ (fun a b => f a = .ok b) l r := by
  intro l
  induction l with
  | nil => intro r h; cases Except.ok.inj h; exact .nil
  | cons a t ih =>
    intro r h
    rw [List.mapM_cons] at h
    obtain ⟨b, h1, h⟩ := bind_ok h
    obtain ⟨bs, h2, h⟩ := bind_ok h
    have h := Except.ok.inj h
    subst h
    exact .cons h1 (ih bs h2)

theorem forall₂_mem {α β : Type} {R : α → β → Prop} {l : List α} {r : List β} (h : List.Forall₂ R l r) :
    ∀ b ∈ r, ∃ a ∈ l, R a b := by
  induction h with
  | nil => simp
  | cons h _ ih =>
    intro b hb
    rcases List.mem_cons.mp hb with rfl | hb
    · exact ⟨_, by simp, h⟩
    · obtain ⟨a, ha, hr⟩ := ih b hb
      exact ⟨a, by simp [ha], hr⟩

theorem single_facts {r : Reader} {u : ChartUnits} {m : Resource.Memory} {d : Data} (h : readSingle r u m none = .ok d) :
    d.margin = none ∧ ∀ k ∈ d.curves, ∀ q ∈ k.pts, 0 ≤ q.eff ∧ q.eff ≤ 1 := by
  unfold readSingle at h
  obtain ⟨_, -, h⟩ := bind_ok h
  obtain ⟨_, -, h⟩ := bind_ok h
  obtain ⟨_, -, h⟩ := bind_ok h
  obtain ⟨_, -, h⟩ := bind_ok h
  obtain ⟨c, hc, h⟩ := bind_ok h
  have h := Except.ok.inj h
  subst h
  refine ⟨rfl, fun k hk => ?_⟩
  unfold Data.make at hk
  rw [List.mem_insertionSort, List.mem_singleton] at hk
  subst hk
  exact makeCurve_fractions hc

theorem variable_facts {r : Reader} {u : ChartUnits} {m : Resource.Memory} {d : Data}
    (h : readVariable r u m none = .ok d) :
    d.margin = none ∧ ∀ k ∈ d.curves, ∀ q ∈ k.pts, 0 ≤ q.eff ∧ q.eff ≤ 1 := by
  unfold readVariable at h
  split at h
  · obtain ⟨_, -, h⟩ := bind_ok h
    obtain ⟨_, -, h⟩ := bind_ok h
    obtain ⟨cs, hc, h⟩ := bind_ok h
    have h := Except.ok.inj h
    subst h
    refine ⟨rfl, fun k hk => ?_⟩
    unfold Data.make at hk
    rw [List.mem_insertionSort] at hk
    obtain ⟨s, -, hs⟩ := forall₂_mem (mapM_mem _ _ _ hc) k hk
    unfold groupCurve at hs
    obtain ⟨_, -, hs⟩ := bind_ok hs
    obtain ⟨_, -, hs⟩ := bind_ok hs
    obtain ⟨_, -, hs⟩ := bind_ok hs
    exact makeCurve_fractions hs
  · cases h

theorem adjusted_none {d : Data} (h : d.margin = none) : d.adjusted = d.curves := by
  unfold Data.adjusted
  rw [h]
  exact (List.map_congr_left fun c _ => rfl).trans (List.map_id _)

theorem least_spec (ch : Chart) : (∃ k ∈ ch.curves, ch.minRate = k.minRate) ∧ ∀ k ∈ ch.curves, ch.minRate ≤ k.minRate := by
  obtain ⟨h1, h2⟩ := Verif.TableLemmas.foldl_min_spec (ch.more.map (·.minRate)) ch.low.minRate
  unfold Chart.minRate least Chart.curves
  constructor
  · rcases List.mem_cons.mp h1 with h' | h'
    · exact ⟨ch.low, by simp, h'⟩
    · obtain ⟨c, hc, he⟩ := List.mem_map.mp h'
      exact ⟨c, by simp [hc], he.symm⟩
  · intro c hc
    refine h2 c.minRate ?_
    rcases List.mem_cons.mp hc with rfl | hc
    · simp
    · exact List.mem_cons_of_mem _ (List.mem_map.mpr ⟨c, hc, rfl⟩)

theorem pump_iff (w : World) (s : Sim) (p : Pump) :
    makePump w s = .ok p ↔ ∃ c mem d, HasPump w s p c mem d := by
  constructor
  · intro h
    unfold makePump at h
    obtain ⟨d, hd, h⟩ := bind_ok h
    obtain ⟨ch, hch, h⟩ := bind_ok h
    unfold chartData at hd
    obtain ⟨c, hc, hd⟩ := bind_ok hd
    have href : w.references.lookup s.chart = some (some c) := by
      unfold getPumpModel at hc
      split at hc
      · rename_i c' hl
        have := Except.ok.inj hc
        subst this
        exact hl
      · cases hc
      · cases hc
    split at hd
    · cases hd
    rename_i hm
    push Not at hm
    split at hd
    · cases hd
    rename_i mem hmem
    have hread : (c.single = true → readSingle w.reader c.units mem none = .ok d) ∧
        (c.single = false → readVariable w.reader c.units mem none = .ok d) ∧ d.margin = none := by
      unfold readChart at hd
      split at hd
      · rename_i d' hr
        have := Except.ok.inj hd
        subst this
        cases hs : c.single with
        | true =>
          rw [hs, if_pos rfl] at hr
          exact ⟨fun _ => hr, fun h => (by cases h), (single_facts hr).1⟩
        | false =>
          rw [hs, if_neg (by simp)] at hr
          exact ⟨fun h => (by cases h), fun _ => hr, (variable_facts hr).1⟩
      all_goals cases hd
    have hcur : ch.curves = d.curves := by
      unfold chartOf at hch
      rw [adjusted_none hread.2.2] at hch
      split at hch
      · cases hch
      · rename_i k ks hk
        have := Except.ok.inj hch
        subst this
        rw [hk]; rfl
    rw [C57.C57_make] at h
    split at h
    · rename_i hok
      have h := Except.ok.inj h
      subst h
      rw [hcur] at hok
      refine ⟨c, mem, d, href, hm, hmem, hread.1, hread.2.1, hcur, hok.1, ?_, ?_, rfl⟩
      · intro m hmf
        exact ⟨by simp [hmf], hok.2 m hmf⟩
      · intro hmf
        have := least_spec ch
        rw [hcur] at this
        simpa [hmf] using this
    · cases h
  · rintro ⟨c, mem, d, hp⟩
    have hfacts : readChart w.reader c mem = .ok d ∧ d.margin = none := by
      unfold readChart
      cases hs : c.single with
      | true => simp only [if_pos, hp.single hs]; exact ⟨trivial, (single_facts (hp.single hs)).1⟩
      | false =>
        simp only [Bool.false_eq_true, if_false, hp.several hs]
        exact ⟨trivial, (variable_facts (hp.several hs)).1⟩
    have hch : chartOf d = .ok p.chart := by
      unfold chartOf
      rw [adjusted_none hfacts.2, ← hp.curves]
      rfl
    unfold makePump chartData getPumpModel
    rw [hp.reference]
    simp only [Bind.bind, Except.bind]
    rw [if_neg (not_not.mpr hp.margin), hp.resource]
    dsimp only
    rw [hfacts.1]
    dsimp only
    rw [hch]
    dsimp only
    rw [C57.C57_make, if_pos]
    · obtain ⟨chart, mf, dis⟩ := p
      have h1 : s.minFlow.getD chart.minRate = mf := by
        cases hmf : s.minFlow with
        | some m => exact ((hp.given m hmf).1).symm
        | none =>
          obtain ⟨⟨k, hk, e1⟩, l1⟩ := hp.default hmf
          obtain ⟨⟨k', hk', e2⟩, l2⟩ := least_spec chart
          have hc := hp.curves
          dsimp only at hc e1 l1 e2 l2
          rw [hc] at hk' l2
          rw [Option.getD_none]
          apply le_antisymm
          · rw [e1]; exact l2 k hk
          · rw [e2]; exact l1 k' hk'
      have h2 : dis = none := hp.fresh
      subst h1 h2
      rfl
    · rw [hp.curves]
      exact ⟨hp.efficient, fun m hm => (hp.given m hm).2⟩

theorem pump_built {w : World} {s : Sim} {p : Pump} {c : PumpChart} {mem : Resource.Memory} {d : Data}
    (h : HasPump w s p c mem d) : C57.Built p := by
  constructor
  · intro k hk q hq
    rw [h.curves] at hk
    cases hs : c.single with
    | true => exact (single_facts (h.single hs)).2 k hk q hq
    | false => exact (variable_facts (h.several hs)).2 k hk q hq
  · rw [h.curves]; exact h.efficient

/-! ## The calculated time -/

theorem subset_period {ev : VarMap} (hb : Built ev) {p : Period} (hp : p.start < p.stop) (hs : p.start ∈ ev.timeVector)
    (he : p.stop ∈ ev.timeVector) :
    ∃ sub i j, ev.getSubsetForPeriod p = .ok sub ∧ ev.getSubset i j = .ok sub ∧ i < j ∧ j ≤ ev.periods.length ∧
      Built sub ∧ sub.periods = (ev.periods.take j).drop i ∧
      ∀ k (hk : k < ev.periods.length), Inside p ev.periods[k] ↔ i ≤ k ∧ k < j := by
  obtain ⟨hl, hsort, hper⟩ := C19.built_facts hb
  obtain ⟨h0, hn, hown⟩ := C19.built_period hb
  obtain ⟨i, hi, his⟩ := List.mem_iff_getElem.mp hs
  obtain ⟨j, hj, hje⟩ := List.mem_iff_getElem.mp he
  have hij : i < j := (C19.sorted_lt hsort hi hj).mp (by omega)
  have ha : ev.timeVector[0] ≤ p.start := by rw [← his]; exact (C19.sorted_le hsort h0 hi).mpr (by omega)
  have hz : p.stop ≤ ev.timeVector[ev.periods.length] := by
    rw [← hje]; exact (C19.sorted_le hsort hj hn).mpr (by omega)
  obtain ⟨sub, h1, h2, h3, h4⟩ := C19.subset_ok hb i j hij (by omega)
  refine ⟨sub, i, j, ?_, h1, hij, by omega, h2, h3, ?_⟩
  · unfold VarMap.getSubsetForPeriod
    rw [hown]
    simp only [Bind.bind, Except.bind]
    have hint : Period.intersects ⟨ev.timeVector[0], ev.timeVector[ev.periods.length]⟩ p = true := by
      simp [Period.intersects, Period.containsDate]; omega
    rw [hint]
    simp only [Bool.not_true, Bool.false_eq_true, if_false]
    rw [if_pos]
    · rw [← his, ← hje, C19.sorted_index hsort hi, C19.sorted_index hsort hj]
      exact h1
    · rw [show max p.start ev.timeVector[0] = p.start by omega,
        show min p.stop ev.timeVector[ev.periods.length] = p.stop by omega]
      exact ⟨hs, he⟩
  · intro k hk
    obtain ⟨k1, k2, k3⟩ := hper k hk
    unfold Inside
    rw [k3]
    simp only [← his, ← hje]
    rw [C19.sorted_le hsort hi k1, C19.sorted_le hsort k2 hj]
    omega

/-- The values of an expression in the calculated time are those of the whole time. -/
theorem series_of (pow : Fl → Fl → Fl) {ev sub : VarMap} (hb : Built ev) {i j : Nat} (hij : i < j)
    (hj : j ≤ ev.periods.length) (hsub : ev.getSubset i j = .ok sub) {e : ExprInput} (hu : Usable ev e) :
    ∃ vs, Series pow sub e vs ∧ ∀ (k : Nat) (x : Fl), vs[k]? = some x ↔ i + k < j ∧ Value pow ev e (i + k) x := by
  obtain ⟨⟨t, ht⟩, hs, ha⟩ := hu
  obtain ⟨sub', vs, h1, h2, h3, h4⟩ := C19.C19_subset pow e.tokens t ev i j ht hs hb ha hij hj
  rw [hsub] at h1
  have := Except.ok.inj h1
  subst this
  obtain ⟨vs', e1, e2, e3⟩ := C19.C19_value_per_period pow e.tokens t ev.vars ev.periods.length ht hs ha
  have : vs' = vs := Except.ok.inj (e1.symm.trans h3)
  subst this
  refine ⟨(vs'.take j).drop i, ⟨t, ht, h4, by simp [h2, e2]⟩, ?_⟩
  intro k x
  rw [List.getElem?_drop, List.getElem?_take]
  constructor
  · intro h
    split at h
    · rename_i hlt
      rw [List.getElem?_eq_some_iff] at h
      obtain ⟨hk, rfl⟩ := h
      exact ⟨hlt, t, ht, e3 _ hk⟩
    · cases h
  · rintro ⟨hlt, t', ht', hm⟩
    rw [if_pos hlt]
    rw [ht] at ht'
    have := Except.ok.inj ht'
    subst this
    have hk : i + k < vs'.length := by omega
    rw [List.getElem?_eq_getElem hk, Option.some.injEq]
    exact C19.C19_meaning_unique pow _ _ _ _ (e3 _ hk) hm

/-- Everything about one simulation in the calculated time. -/
theorem sim_spec (pow : Fl → Fl → Fl) (w : World) {ev sub : VarMap} (hb : Built ev) {i j : Nat} (hij : i < j)
    (hj : j ≤ ev.periods.length) (hsub : ev.getSubset i j = .ok sub) (hbs : Built sub) (s : Sim) (hu : AllUsable ev s)
    (p : Pump) (hp : makePump w s = .ok p) :
    ((∀ k v, i ≤ k → k < j → Values pow ev s k v → Acceptable v) →
      ∃ is, PumpMap.map pow w sub s = .ok ⟨s.name, p, is, sub.periods⟩ ∧ is.length = sub.periods.length ∧
        ∀ k inp, is[k]? = some inp → ∃ v, Values pow ev s (i + k) v ∧ Operates v inp) ∧
    ((¬ ∀ k v, i ≤ k → k < j → Values pow ev s k v → Acceptable v) → PumpMap.map pow w sub s = .error .validation) := by
  obtain ⟨u1, u2, u3, u4⟩ := hu
  obtain ⟨rs, r1, r2⟩ := series_of pow hb hij hj hsub u1
  obtain ⟨ss, s1, s2⟩ := series_of pow hb hij hj hsub u2
  obtain ⟨ds, d1, d2⟩ := series_of pow hb hij hj hsub u3
  obtain ⟨qs, q1, q2⟩ := series_of pow hb hij hj hsub u4
  obtain ⟨m1, m2⟩ := map_spec pow w hbs s r1 s1 d1 q1 p hp
  have hat : ∀ k v, at4 rs ss ds qs k v ↔ i + k < j ∧ Values pow ev s (i + k) v := by
    intro k v
    unfold at4 Values
    rw [r2, s2, d2, q2]
    tauto
  have hall : (∀ k v, at4 rs ss ds qs k v → Acceptable v) ↔ ∀ k v, i ≤ k → k < j → Values pow ev s k v → Acceptable v := by
    constructor
    · intro h k v h1 h2 h3
      have e : i + (k - i) = k := by omega
      exact h (k - i) v ((hat _ _).mpr (by rw [e]; exact ⟨h2, h3⟩))
    · intro h k v hv
      obtain ⟨h1, h2⟩ := (hat k v).mp hv
      exact h (i + k) v (by omega) h1 h2
  rw [hall] at m1 m2
  refine ⟨fun h => ?_, m2⟩
  obtain ⟨is, h1, h2, h3⟩ := m1 h
  refine ⟨is, h1, h2, ?_⟩
  intro k inp hk
  have hk' : k < is.length := (List.getElem?_eq_some_iff.mp hk).1
  obtain ⟨_, _, _, lr⟩ := r1
  obtain ⟨_, _, _, ls⟩ := s1
  obtain ⟨_, _, _, ld⟩ := d1
  obtain ⟨_, _, _, lq⟩ := q1
  have hv : at4 rs ss ds qs k ⟨rs[k]'(by omega), ss[k]'(by omega), ds[k]'(by omega), qs[k]'(by omega)⟩ := by
    simp [at4]
  obtain ⟨inp', hi, ho⟩ := h3 k _ hv
  rw [hk] at hi
  cases hi
  exact ⟨_, ((hat _ _).mp hv).2, ho⟩

theorem mapM_all {ε α β : Type} (f : α → Except ε β) (l : List α) : (∃ r, l.mapM f = .ok r) ↔ ∀ a ∈ l, ∃ b, f a = .ok b := by
  constructor
  · rintro ⟨r, h⟩ a ha
    have h' := mapM_mem f l r h
    clear h
    induction h' with
    | nil => simp at ha
    | cons h _ ih =>
      rcases List.mem_cons.mp ha with rfl | ha
      · exact ⟨_, h⟩
      · exact ih ha
  · intro h
    induction l with
    | nil => exact ⟨[], rfl⟩
    | cons a t ih =>
      obtain ⟨b, hb⟩ := h a (by simp)
      obtain ⟨r, hr⟩ := ih fun a ha => h a (by simp [ha])
      exact ⟨b :: r, by rw [List.mapM_cons, hb, hr]; rfl⟩

theorem mapAll_eq (pow : Fl → Fl → Fl) (w : World) {ev sub : VarMap} {p : Period}
    (h : ev.getSubsetForPeriod p = .ok sub) (sims : List Sim) :
    mapAll pow w ev p sims = sims.mapM (PumpMap.map pow w sub) := by
  unfold mapAll
  rw [h]
  rfl

/-! ## Property theorems -/

/-- **Inputs**: a mapped simulation has its name, the pump of its chart, exactly the periods of the calculated time, and
one input per period, made of the values its four expressions have in that period. -/
theorem C113_inputs (pow : Fl → Fl → Fl) (w : World) (ev : VarMap) (hb : Built ev) (p : Period) (hp : p.start < p.stop)
    (hs : p.start ∈ ev.timeVector) (he : p.stop ∈ ev.timeVector) (sims : List Sim) (hu : ∀ s ∈ sims, AllUsable ev s)
    (ms : List Mapped) (h : mapAll pow w ev p sims = .ok ms) :
    List.Forall₂ (fun s m => m.name = s.name ∧ (∃ c mem d, HasPump w s m.pump c mem d) ∧
      m.periods = ev.periods.filter (fun q => decide (p.start ≤ q.start ∧ q.stop ≤ p.stop)) ∧
      m.inputs.length = m.periods.length ∧
      ∀ (i : Nat) (inp : Input), m.inputs[i]? = some inp → ∃ (j : Nat) (v : Four), ev.periods[j]? = m.periods[i]? ∧
        j < ev.periods.length ∧ Values pow ev s j v ∧ Acceptable v ∧ Operates v inp) sims ms := by
  obtain ⟨sub, a, b, g1, g2, g3, g4, g5, g6, g7⟩ := subset_period hb hp hs he
  rw [mapAll_eq pow w g1] at h
  have h' := mapM_mem _ _ _ h
  clear h
  have hfil : sub.periods = ev.periods.filter (fun q => decide (p.start ≤ q.start ∧ q.stop ≤ p.stop)) := by
    obtain ⟨sub', i', j', f1, -, f3⟩ := C19.C19_subset_for_period ev hb p hp hs he
    rw [g1] at f1
    rw [Except.ok.inj f1]; exact f3
  induction h' with
  | nil => exact .nil
  | @cons s m sims ms hm _ ih =>
    refine .cons ?_ (ih fun x hx => hu x (List.mem_cons_of_mem _ hx))
    obtain ⟨hpump, hname⟩ := map_pump hm
    obtain ⟨c1, c2⟩ := sim_spec pow w hb g3 g4 g2 g5 s (hu s (by simp)) m.pump hpump
    by_cases hacc : ∀ k v, a ≤ k → k < b → Values pow ev s k v → Acceptable v
    · obtain ⟨is, e1, e2, e3⟩ := c1 hacc
      rw [hm] at e1
      have e1 := Except.ok.inj e1
      have hpump := (pump_iff w s m.pump).mp hpump
      rw [e1] at hpump ⊢
      refine ⟨rfl, hpump, hfil, e2, ?_⟩
      intro i inp hi
      obtain ⟨v, hv, ho⟩ := e3 i inp hi
      have hlt : i < is.length := (List.getElem?_eq_some_iff.mp hi).1
      rw [e2, g6] at hlt
      simp only [List.length_drop, List.length_take] at hlt
      refine ⟨a + i, v, ?_, by omega, hv, hacc _ _ (by omega) (by omega) hv, ho⟩
      rw [g6, List.getElem?_drop, List.getElem?_take, if_pos (by omega)]
    · rw [c2 hacc] at hm; cases hm

/-- **Acceptance**: the simulations are mapped exactly when every one has a pump and acceptable values in every period of
the calculated time; one without is refused with a validation error when its pump is fine. -/
theorem C113_accepted (pow : Fl → Fl → Fl) (w : World) (ev : VarMap) (hb : Built ev) (p : Period) (hp : p.start < p.stop)
    (hs : p.start ∈ ev.timeVector) (he : p.stop ∈ ev.timeVector) (sims : List Sim) (hu : ∀ s ∈ sims, AllUsable ev s) :
    ((∃ ms, mapAll pow w ev p sims = .ok ms) ↔ ∀ s ∈ sims, (∃ pump c mem d, HasPump w s pump c mem d) ∧
      ∀ (k : Nat) (hk : k < ev.periods.length) (v : Four), Inside p ev.periods[k] → Values pow ev s k v → Acceptable v) ∧
    ((∀ s ∈ sims, ∃ pump c mem d, HasPump w s pump c mem d) → (¬ ∃ ms, mapAll pow w ev p sims = .ok ms) →
      mapAll pow w ev p sims = .error .validation) := by
  obtain ⟨sub, a, b, g1, g2, g3, g4, g5, g6, g7⟩ := subset_period hb hp hs he
  rw [mapAll_eq pow w g1]
  have hin : ∀ s, (∀ (k : Nat) (hk : k < ev.periods.length) (v : Four), Inside p ev.periods[k] → Values pow ev s k v →
      Acceptable v) ↔ ∀ k v, a ≤ k → k < b → Values pow ev s k v → Acceptable v := by
    intro s
    constructor
    · intro h k v h1 h2
      exact h k (by omega) v ((g7 k (by omega)).mpr ⟨h1, h2⟩)
    · intro h k hk v h1
      obtain ⟨h2, h3⟩ := (g7 k hk).mp h1
      exact h k v h2 h3
  have hone : ∀ s ∈ sims, ∀ pump, makePump w s = .ok pump →
      ((∃ m, PumpMap.map pow w sub s = .ok m) ∨ PumpMap.map pow w sub s = .error .validation) := by
    intro s hsm pump hpump
    obtain ⟨c1, c2⟩ := sim_spec pow w hb g3 g4 g2 g5 s (hu s hsm) pump hpump
    by_cases hacc : ∀ k v, a ≤ k → k < b → Values pow ev s k v → Acceptable v
    · obtain ⟨is, e1, -⟩ := c1 hacc
      exact .inl ⟨_, e1⟩
    · exact .inr (c2 hacc)
  constructor
  · rw [mapM_all]
    apply forall_congr'
    intro s
    apply imp_congr_right
    intro hsm
    rw [hin]
    constructor
    · rintro ⟨m, hm⟩
      obtain ⟨hpump, -⟩ := map_pump hm
      refine ⟨⟨m.pump, (pump_iff w s m.pump).mp hpump⟩, ?_⟩
      by_contra hacc
      have := (sim_spec pow w hb g3 g4 g2 g5 s (hu s hsm) m.pump hpump).2 hacc
      rw [this] at hm; cases hm
    · rintro ⟨⟨pump, hpump⟩, hacc⟩
      obtain ⟨is, e1, -⟩ :=
        (sim_spec pow w hb g3 g4 g2 g5 s (hu s hsm) pump ((pump_iff w s pump).mpr hpump)).1 hacc
      exact ⟨_, e1⟩
  · intro hall hno
    have hall' : ∀ s ∈ sims, ∃ pump, makePump w s = .ok pump := fun s hsm => by
      obtain ⟨pump, h⟩ := hall s hsm
      exact ⟨pump, (pump_iff w s pump).mpr h⟩
    clear hu hin hall
    induction sims with
    | nil => exact absurd ⟨[], rfl⟩ hno
    | cons s t ih =>
      obtain ⟨pump, hpump⟩ := hall' s (by simp)
      rcases hone s (by simp) pump hpump with ⟨m, hm⟩ | hm
      · have hno' : ¬ ∃ ms, t.mapM (PumpMap.map pow w sub) = .ok ms := by
          rintro ⟨ms, h⟩
          exact hno ⟨m :: ms, by rw [List.mapM_cons, hm, h]; rfl⟩
        rw [List.mapM_cons, hm, ih (fun x hx => hone x (by simp [hx])) hno' (fun x hx => hall' x (by simp [hx]))]
        rfl
      · rw [List.mapM_cons, hm]; rfl

/-- **References**: a simulation whose chart is the name of nothing, or of something that is no pump chart, is refused
with that name. -/
theorem C113_reference (pow : Fl → Fl → Fl) (w : World) (ev : VarMap) (hb : Built ev) (p : Period) (hp : p.start < p.stop)
    (hs : p.start ∈ ev.timeVector) (he : p.stop ∈ ev.timeVector) (s : Sim) (sims : List Sim)
    (h : ∀ c, w.references.lookup s.chart ≠ some (some c)) :
    mapAll pow w ev p (s :: sims) = .error (.reference s.chart) := by
  obtain ⟨sub, a, b, g1, -⟩ := subset_period hb hp hs he
  rw [mapAll_eq pow w g1, List.mapM_cons]
  have hc : getPumpModel w s.chart = .error (.reference s.chart) := by
    rw [getPumpModel]
    match hl : w.references.lookup s.chart with
    | none => rfl
    | some none => rfl
    | some (some c) => exact absurd hl (h c)
  have hm : PumpMap.map pow w sub s = .error (.reference s.chart) := by
    rw [PumpMap.map, makePump, chartData, hc]
    rfl
  rw [hm]
  rfl

/-- The input without NaN that stands for a stream and a target. -/
def asInput (l : Liquid × ℚ) : Input := ⟨⟨some l.1.pressure, some l.1.density, some l.1.mass⟩, some l.2⟩

/-- **Running**: when no value is NaN, a mapped simulation can be evaluated, whatever the geometry of its chart, with one
result per period. -/
theorem C113_runs (pow : Fl → Fl → Fl) (near : Curve → ℚ → ℚ → ℚ × ℚ) (w : World) (ev : VarMap) (hb : Built ev)
    (p : Period) (hp : p.start < p.stop) (hs : p.start ∈ ev.timeVector) (he : p.stop ∈ ev.timeVector) (sims : List Sim)
    (hu : ∀ s ∈ sims, AllUsable ev s)
    (hn : ∀ s ∈ sims, ∀ k v, Values pow ev s k v → v.rate ≠ none ∧ v.suction ≠ none ∧ v.discharge ≠ none ∧ v.density ≠ none)
    (ms : List Mapped) (h : mapAll pow w ev p sims = .ok ms) :
    ∀ m ∈ ms, ∃ ls rs, m.inputs = ls.map asInput ∧ evaluateAll near m.pump ls = .ok rs ∧ rs.length = m.periods.length ∧
      ls.map (evaluateOne near m.pump) = rs.map .ok := by
  intro m hm
  obtain ⟨s, hsm, -, ⟨c, mem, d, hpump⟩, -, h4, h5⟩ :=
    forall₂_mem (C113_inputs pow w ev hb p hp hs he sims hu ms h) m hm
  have hin : ∀ inp ∈ m.inputs, ∃ l : Liquid × ℚ, inp = asInput l ∧ C57.Physical l.1 ∧ 0 < l.2 := by
    intro inp hi
    obtain ⟨k, hk, rfl⟩ := List.mem_iff_getElem.mp hi
    obtain ⟨j, v, -, -, hv, ha, ho⟩ := h5 k _ (List.getElem?_eq_getElem hk)
    obtain ⟨n1, n2, n3, n4⟩ := hn s hsm j v hv
    obtain ⟨r, hr⟩ := Option.ne_none_iff_exists'.mp n1
    obtain ⟨su, hsu⟩ := Option.ne_none_iff_exists'.mp n2
    obtain ⟨di, hdi⟩ := Option.ne_none_iff_exists'.mp n3
    obtain ⟨q, hq⟩ := Option.ne_none_iff_exists'.mp n4
    have hmass := ho.mass r q hr hq
    have r0 := ha.rate r hr
    have s0 := ha.suction su hsu
    have q0 := ha.density q hq
    have phys : C57.Physical ⟨su, q, r * q / 24⟩ :=
      ⟨s0, q0, div_nonneg (mul_nonneg r0 q0.le) (by norm_num)⟩
    have hpre := ho.pressure
    have hden := ho.density
    by_cases hd : (∃ r, v.rate = some r ∧ 0 < r) ∨ (∃ d, v.discharge = some d ∧ 0 < d)
    · have ht := ho.target hd
      refine ⟨(⟨su, q, r * q / 24⟩, di), ?_, phys, ?_⟩
      · generalize m.inputs[k] = inp at *
        obtain ⟨⟨x1, x2, x3⟩, x4⟩ := inp
        simp only [asInput] at *
        rw [hpre, hden, hmass, ht, hsu, hdi, hq]
      · rcases hd with ⟨r', hr', hr0⟩ | ⟨d', hd', hd0⟩
        · exact ha.running r' di hr' hr0 hdi
        · rw [hdi] at hd'; cases hd'; exact hd0
    · push Not at hd
      have ht := ho.still (fun ⟨r, h1, h2⟩ => absurd (hd.1 r h1) (not_le.mpr h2))
        (fun ⟨r, h1, h2⟩ => absurd (hd.2 r h1) (not_le.mpr h2))
      refine ⟨(⟨su, q, r * q / 24⟩, su), ?_, phys, s0⟩
      generalize m.inputs[k] = inp at *
      obtain ⟨⟨x1, x2, x3⟩, x4⟩ := inp
      simp only [asInput] at *
      rw [hpre, hden, hmass, ht, hsu, hq]
  have hls : ∀ is : List Input, (∀ inp ∈ is, ∃ l : Liquid × ℚ, inp = asInput l ∧ C57.Physical l.1 ∧ 0 < l.2) →
      ∃ ls : List (Liquid × ℚ), is = ls.map asInput ∧ ∀ l ∈ ls, C57.Physical l.1 ∧ 0 < l.2 := by
    intro is
    induction is with
    | nil => intro _; exact ⟨[], rfl, by simp⟩
    | cons i is ih =>
      intro h
      obtain ⟨l, rfl, hl⟩ := h i (by simp)
      obtain ⟨ls, rfl, hls⟩ := ih fun x hx => h x (by simp [hx])
      exact ⟨l :: ls, rfl, by
        intro x hx
        rcases List.mem_cons.mp hx with rfl | hx
        · exact hl
        · exact hls x hx⟩
  obtain ⟨ls, hl1, hl2⟩ := hls m.inputs hin
  obtain ⟨rs, hr1, hr2⟩ := C57.C57_simulation near m.pump (pump_built hpump) ls hl2
  refine ⟨ls, rs, hl1, hr1, ?_, hr2⟩
  have := congrArg List.length hr2
  simp only [List.length_map] at this
  rw [← this, ← h4, hl1, List.length_map]

/-! ## Findings and examples -/

/-- A file with one curve. -/
def file : Resource.Memory :=
  ⟨["RATE", "HEAD", "EFFICIENCY"], [[.int 100, .int 200], [.int 3000, .int 2000], [.float (some (1 / 2)), .float (some (3 / 5))]]⟩

/-- A file with two curves whose header of the rates is in lower case. -/
def lowerFile : Resource.Memory :=
  ⟨["SPEED", "rate", "HEAD", "EFFICIENCY"], [[.int 1, .int 1], [.int 100, .int 200], [.int 3000, .int 2000],
    [.float (some (1 / 2)), .float (some (3 / 5))]]⟩

/-- A model with a pump chart of one speed, one of several speeds, and something else. -/
def world : World where
  references := [("pump", some ⟨true, 0, "a.csv", ⟨.joulePerKg, .fraction⟩⟩),
    ("lower", some ⟨false, 0, "b.csv", ⟨.joulePerKg, .fraction⟩⟩),
    ("margin", some ⟨true, 1, "a.csv", ⟨.joulePerKg, .fraction⟩⟩), ("fuel", none)]
  resources := [("a.csv", file), ("b.csv", lowerFile)]
  reader := ⟨id, fun _ => none⟩

/-- Three periods; the rate is zero in the second one. -/
def times : VarMap := ⟨[⟨0, 10⟩, ⟨10, 20⟩, ⟨20, 30⟩], [0, 10, 20, 30],
  [("r", [some 2400, some 0, some 4800]), ("d", [some 30, some 0, some 40]), ("n", [some 30, some (-1), some 40]),
   ("s", [none, some 5, some 5])]⟩

/-- A simulation with the given chart, suction pressure and discharge pressure. -/
def sim (chart : String) (suction discharge : ExprInput) : Sim :=
  ⟨"p", chart, none, .text [.ref "r"], suction, .number 1000, discharge⟩

/-- The pump of `file`. -/
def samplePump : Pump := ⟨⟨⟨1, ⟨100, 3000, 1 / 2⟩, [⟨200, 2000, 3 / 5⟩]⟩, []⟩, 100, none⟩

/-- Names, inputs and periods of the result. -/
def shown (r : Except MErr (List Mapped)) : Except MErr (List (Pump × List Input × List Period)) :=
  r.map (List.map fun m => (m.pump, m.inputs, m.periods))

/-- Finding: a negative discharge pressure is refused also where the pump stands still, although the code promises to fall
back to the suction pressure there; only zero falls back. -/
theorem C113_off (pow : Fl → Fl → Fl) (w : World) (ev : VarMap) (hb : Built ev) (p : Period) (hp : p.start < p.stop)
    (hs : p.start ∈ ev.timeVector) (he : p.stop ∈ ev.timeVector) (s : Sim) (hu : AllUsable ev s)
    (hpump : ∃ pump c mem d, HasPump w s pump c mem d) (k : Nat) (hk : k < ev.periods.length)
    (hin : Inside p ev.periods[k]) (v : Four) (hv : Values pow ev s k v) (_ : v.rate = some 0) (d : ℚ)
    (hd : v.discharge = some d) (hneg : d < 0) : mapAll pow w ev p [s] = .error .validation := by
  obtain ⟨h1, h2⟩ := C113_accepted pow w ev hb p hp hs he [s] (by simpa using hu)
  apply h2 (by simpa using hpump)
  rw [h1]
  intro h
  have := ((h s (by simp)).2 k hk v hin hv).discharge d hd
  linarith

/-- The exponentiation used in the examples. -/
def noPow : Fl → Fl → Fl := fun _ _ => none

/-- Finding: NaN is accepted as suction pressure, and given to the pump. -/
theorem C113_nan : shown (mapAll noPow world times ⟨0, 10⟩ [sim "pump" (.text [.ref "s"]) (.text [.ref "d"])]) =
    .ok [(samplePump, [⟨⟨none, some 1000, some 100000⟩, some 30⟩], [⟨0, 10⟩])] := by decide +kernel

/-- Finding: a header in lower case is a `KeyError`, not an error the user is told about. -/
theorem C113_header : shown (mapAll noPow world times ⟨0, 30⟩ [sim "lower" (.number 5) (.text [.ref "d"])]) =
    .error (.keyError "RATE") := by decide +kernel

/-- Three periods, the middle one without flow: there the target is the suction pressure. -/
example : shown (mapAll noPow world times ⟨0, 30⟩ [sim "pump" (.number 5) (.text [.ref "d"])]) =
    .ok [(samplePump, [⟨⟨some 5, some 1000, some 100000⟩, some 30⟩, ⟨⟨some 5, some 1000, some 0⟩, some 5⟩,
      ⟨⟨some 5, some 1000, some 200000⟩, some 40⟩], [⟨0, 10⟩, ⟨10, 20⟩, ⟨20, 30⟩])] := by decide +kernel

/-- Only a part of the time is calculated. -/
example : shown (mapAll noPow world times ⟨10, 30⟩ [sim "pump" (.number 5) (.text [.ref "d"])]) =
    .ok [(samplePump, [⟨⟨some 5, some 1000, some 0⟩, some 5⟩, ⟨⟨some 5, some 1000, some 200000⟩, some 40⟩],
      [⟨10, 20⟩, ⟨20, 30⟩])] := by decide +kernel

example : shown (mapAll noPow world times ⟨10, 20⟩ [sim "pump" (.number 5) (.text [.ref "n"])]) = .error .validation := by
  decide +kernel

example : shown (mapAll noPow world times ⟨10, 20⟩ [sim "margin" (.number 5) (.number 6)]) = .error .validation := by
  decide +kernel

example : shown (mapAll noPow world times ⟨10, 20⟩ [sim "fuel" (.number 5) (.number 6)]) = .error (.reference "fuel") := by
  decide +kernel

example : shown (mapAll noPow world times ⟨0, 30⟩ [sim "pump" (.number 5) (.number 0)]) = .error .validation := by
  decide +kernel

theorem times_built : Built times := by
  refine ⟨?_, rfl⟩
  simp [times, C05.WF]

/-- The hypotheses can be met. -/
example : AllUsable times (sim "pump" (.number 5) (.text [.ref "d"])) := by
  refine ⟨⟨⟨_, rfl⟩, by simp [Supported, sim, ExprInput.tokens], ?_⟩, ⟨⟨_, rfl⟩, by simp [Supported, sim, ExprInput.tokens],
    ?_⟩, ⟨⟨_, rfl⟩, by simp [Supported, sim, ExprInput.tokens], ?_⟩, ⟨⟨_, rfl⟩, by simp [Supported, sim, ExprInput.tokens], ?_⟩⟩
  · intro s hs
    simp only [sim, ExprInput.tokens, List.mem_singleton, Token.ref.injEq] at hs
    subst hs
    exact ⟨_, rfl, rfl⟩
  · intro s hs; simp [sim, ExprInput.tokens] at hs
  · intro s hs
    simp only [sim, ExprInput.tokens, List.mem_singleton, Token.ref.injEq] at hs
    subst hs
    exact ⟨_, rfl, rfl⟩
  · intro s hs; simp [sim, ExprInput.tokens] at hs

end Verif.C113
