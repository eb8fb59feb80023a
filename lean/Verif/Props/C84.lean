import Verif.Model.Simplified
import Verif.Props.C61
import Verif.Props.C83

/-!
# C84 Simplified compressor trains

The thermodynamics are arbitrary; `Honest` says that a flash returns the conditions it was asked for.
-/

namespace Verif.C84
open Verif.Simplified Verif.Outlet Verif.Charts Verif.C56 Verif.C57 Verif.C58 Verif.C61

/-- A flash gives the pressure and temperature, or the pressure and enthalpy, that were asked for. -/
structure Honest (th : Thermo) : Prop where
  pt : ∀ p t s, th.flashPT p t = some s → s.pressure = p ∧ s.temperature = t
  ph : ∀ p h s, th.flashPH p h = some s → s.pressure = p ∧ s.enthalpy = h

/-! ## Lemmas -/

theorem plain_ok {o : Option State} {s : State} (h : plain o = .ok s) : o = some s := by
  cases o with
  | none => cases h
  | some t => cases Except.ok.inj h; rfl

/-- What a stage result consists of. -/
theorem stage_parts {th : Thermo} {st : SStage} {p mass ratio : ℚ} {adjust : Bool} {r : StageOut}
    (h : evalStage th st p mass ratio adjust = .ok r) :
    ∃ inlet change massAsv before eff c outlet, th.flashPT p st.temperature = some inlet ∧
      corrections th st inlet mass (p * ratio) adjust = .ok (change, massAsv, before, eff, c) ∧
      th.flashPH (p * ratio) (inlet.enthalpy + change) = some outlet ∧
      r.inlet = inlet ∧ r.outlet = outlet ∧ r.mass = mass ∧ r.massAsv = massAsv ∧
      r.power = (if c.exceeds then none else some (massAsv * change / 3600 * (1 / 1000000))) ∧
      r.area = areaOf c ∧ r.change = change ∧ r.changeBefore = before ∧ r.efficiency = eff ∧
      r.recirculates = c.recirculates ∧ r.rateExceeds = c.rateExceeds ∧ r.choked = c.choked ∧
      r.headExceeds = c.headExceeds ∧ r.valid = r.power.isSome := by
  unfold evalStage at h
  cases h1 : plain (th.flashPT p st.temperature) with
  | error e => rw [h1] at h; cases h
  | ok inlet =>
    rw [h1] at h
    simp only at h
    cases h2 : corrections th st inlet mass (p * ratio) adjust with
    | error e => rw [h2] at h; cases h
    | ok q =>
      obtain ⟨change, massAsv, before, eff, c⟩ := q
      rw [h2] at h
      simp only at h
      cases h3 : plain (th.flashPH (p * ratio) (inlet.enthalpy + change)) with
      | error e => rw [h3] at h; cases h
      | ok outlet =>
        rw [h3] at h
        cases Except.ok.inj h
        exact ⟨inlet, change, massAsv, before, eff, c, outlet, plain_ok h1, h2, plain_ok h3, rfl, rfl, rfl, rfl, rfl, rfl,
          rfl, rfl, rfl, rfl, rfl, rfl, rfl, rfl⟩

theorem corrections_run {th : Thermo} {st : SStage} {inlet : State} {mass out : ℚ} {q : ℚ × ℚ × ℚ × Option ℚ × Capacity}
    (hm : 0 < mass) (h : corrections th st inlet mass out true = .ok q) :
    ∃ change eff conv, headIteration th st.efficiency inlet (mass / inlet.density) out = .ok (change, eff, conv) ∧
      q = ((st.chart.capacity (mass / inlet.density) (change * eff) true).head / eff,
        (st.chart.capacity (mass / inlet.density) (change * eff) true).rate * inlet.density, change, some eff,
        st.chart.capacity (mass / inlet.density) (change * eff) true) := by
  unfold corrections at h
  rw [if_pos hm] at h
  cases h1 : headIteration th st.efficiency inlet (mass / inlet.density) out with
  | error e => rw [h1] at h; cases h
  | ok t =>
    obtain ⟨change, eff, conv⟩ := t
    rw [h1] at h
    simp only [if_true] at h
    exact ⟨change, eff, conv, rfl, (Except.ok.inj h).symm⟩

/-! ## Theorems -/

/-- **One stage, energy and mass.** The outlet is at the inlet pressure times the ratio and has taken up the enthalpy
change of the stage; mass only enters through the recycle; recirculating and choking never make the machine's mass or
enthalpy change smaller than what is needed; the power is mass times enthalpy change. -/
theorem C84_balance (th : Thermo) (ht : Honest th) (st : SStage) (p mass ratio : ℚ) (r : StageOut) (hm : 0 < mass)
    (h : evalStage th st p mass ratio true = .ok r) (hd : 0 < r.inlet.density)
    (he : ∀ x y, 0 < st.efficiency x y) :
    r.inlet.pressure = p ∧ r.inlet.temperature = st.temperature ∧ r.outlet.pressure = p * ratio ∧
    r.outlet.enthalpy = r.inlet.enthalpy + r.change ∧ r.mass = mass ∧
    mass ≤ r.massAsv ∧ (r.recirculates = true ↔ r.massAsv ≠ mass) ∧
    r.changeBefore ≤ r.change ∧ (r.choked = true ↔ r.change ≠ r.changeBefore) ∧
    (∀ w, r.power = some w → w * 3600000000 = r.massAsv * r.change) ∧ (r.valid = true ↔ r.power ≠ none) := by
  obtain ⟨inlet, change, massAsv, before, eff, c, outlet, h1, h2, h3, e1, e2, e3, e4, e5, e6, e7, e8, e9, e10, e11, e12,
    e13, e14⟩ := stage_parts h
  obtain ⟨ch, ef, conv, hi, hq⟩ := corrections_run hm h2
  obtain ⟨p1, p2⟩ := ht.pt _ _ _ h1
  obtain ⟨q1, q2⟩ := ht.ph _ _ _ h3
  cases hq
  rw [e1] at hd
  have hef : 0 < ef := by
    have loop : ∀ n a z k ch0 e0, 0 < e0 →
        headLoop th st.efficiency inlet (mass / inlet.density) (p * ratio) n a z k ch0 e0 = .ok (before, ef, conv) →
        0 < ef := by
      intro n
      induction n with
      | zero => intro a z k ch0 e0 h0 hl; cases Except.ok.inj hl; exact h0
      | succ n ih =>
        intro a z k ch0 e0 h0 hl
        unfold headLoop at hl
        simp only at hl
        generalize th.head (st.efficiency (mass / inlet.density) a) k z (p * ratio / inlet.pressure)
          inlet.temperature = hh at hl
        cases hf : plain (th.flashPH (p * ratio) (inlet.enthalpy + hh / st.efficiency (mass / inlet.density) a)) with
        | error e => rw [hf] at hl; cases hl
        | ok s =>
          rw [hf] at hl
          simp only at hl
          by_cases hc : closeHeads a hh = true
          · rw [if_pos hc] at hl
            cases Except.ok.inj hl
            exact he _ _
          · rw [if_neg hc] at hl
            exact ih _ _ _ _ _ (he _ _) hl
    exact loop _ _ _ _ _ _ (he _ _) hi
  obtain ⟨s1, s2, s3, s4⟩ := C61_corrected st.chart (mass / inlet.density) (before * ef)
  generalize hcap : st.chart.capacity (mass / inlet.density) (before * ef) true = cap at *
  have hr : mass / inlet.density ≤ cap.rate := s1.1 _ (by simp)
  have hh : before * ef ≤ cap.head := s2.1 _ (by simp)
  rw [e1, e2, e3, e4, e7, e8, e10, e12]
  refine ⟨p1, p2, q1, q2, rfl, ?_, ?_, ?_, ?_, ?_, ?_⟩
  · rw [div_le_iff₀ hd] at hr; exact hr
  · rw [s3, ne_eq, ne_eq, not_iff_not, eq_div_iff hd.ne']
  · rw [le_div_iff₀ hef]; exact hh
  · rw [s4, ne_eq, ne_eq, not_iff_not, div_eq_iff hef.ne']
  · intro w hw
    rw [e5] at hw
    split_ifs at hw
    cases Option.some.inj hw
    ring
  · rw [e14]
    cases r.power <;> simp

/-- **Capacity.** On an ordinary chart a stage result is valid exactly when the corrected operating point is inside the
envelope of the chart. -/
theorem C84_capacity (th : Thermo) (st : SStage) (p mass ratio : ℚ) (r : StageOut) (hm : 0 < mass)
    (ho : Ordinary st.chart) (h : evalStage th st p mass ratio true = .ok r) (hd : 0 < r.inlet.density) :
    ∃ eff, r.efficiency = some eff ∧
      (0 < eff → (r.valid = true ↔ Inside st.chart (r.massAsv / r.inlet.density) (r.change * eff))) := by
  obtain ⟨inlet, change, massAsv, before, eff, c, outlet, h1, h2, h3, e1, e2, e3, e4, e5, e6, e7, e8, e9, e10, e11, e12,
    e13, e14⟩ := stage_parts h
  obtain ⟨ch, ef, conv, hi, hq⟩ := corrections_run hm h2
  cases hq
  refine ⟨ef, e9, fun hef => ?_⟩
  rw [e1] at hd
  rw [e14, e5, e4, e7, e1, mul_div_cancel_right₀ _ hd.ne', div_mul_cancel₀ _ hef.ne', ← C61_capacity _ ho]
  cases (st.chart.capacity (mass / inlet.density) (before * ef) true).exceeds <;> simp

/-- **Area.** The chart area tells where the request was: below the minimum speed exactly when the pressure is choked,
below the minimum flow exactly when gas is recirculated, above the maximum flow when the rate exceeds the maximum (and
nothing is recirculated), above the maximum speed only when nothing else is wrong, internal when nothing is. -/
theorem C84_area (th : Thermo) (st : SStage) (p mass ratio : ℚ) (adjust : Bool) (r : StageOut)
    (h : evalStage th st p mass ratio adjust = .ok r) :
    (r.choked = true ↔ r.area = .belowSpeed ∨ r.area = .belowSpeedBelowFlow ∨ r.area = .belowSpeedAboveFlow) ∧
    (r.recirculates = true ↔ r.area = .belowFlow ∨ r.area = .belowSpeedBelowFlow) ∧
    (r.rateExceeds = true ∧ r.recirculates = false ↔ r.area = .aboveFlow ∨ r.area = .belowSpeedAboveFlow) ∧
    (r.headExceeds = true ∧ r.rateExceeds = false ∧ r.recirculates = false ∧ r.choked = false ↔ r.area = .aboveSpeed) ∧
    (r.headExceeds = false ∧ r.rateExceeds = false ∧ r.recirculates = false ∧ r.choked = false ↔ r.area = .internal) := by
  obtain ⟨inlet, change, massAsv, before, eff, c, outlet, h1, h2, h3, e1, e2, e3, e4, e5, e6, e7, e8, e9, e10, e11, e12,
    e13, e14⟩ := stage_parts h
  rw [e6, e10, e11, e12, e13]
  unfold areaOf
  cases c.choked <;> cases c.recirculates <;> cases c.rateExceeds <;> cases c.headExceeds <;> simp

/-- **No flow, no power.** A stage without mass flow passes the pressure on and takes up nothing. -/
theorem C84_idle_stage (th : Thermo) (ht : Honest th) (st : SStage) (p ratio : ℚ) (adjust : Bool) (r : StageOut)
    (h : evalStage th st p 0 ratio adjust = .ok r) :
    r.power = some 0 ∧ r.valid = true ∧ r.massAsv = 0 ∧ r.area = .internal ∧ r.efficiency = none ∧
      r.outlet.enthalpy = r.inlet.enthalpy ∧ r.outlet.pressure = p * ratio := by
  obtain ⟨inlet, change, massAsv, before, eff, c, outlet, h1, h2, h3, e1, e2, e3, e4, e5, e6, e7, e8, e9, e10, e11, e12,
    e13, e14⟩ := stage_parts h
  unfold corrections at h2
  rw [if_neg (lt_irrefl _)] at h2
  cases Except.ok.inj h2
  obtain ⟨q1, q2⟩ := ht.ph _ _ _ h3
  rw [e14, e5, e4, e6, e9, e1, e2, q1, q2]
  simp [areaOf]

theorem stages_spec (th : Thermo) (ht : Honest th) (ratio mass : ℚ) : ∀ (sts : List SStage) (p : ℚ) (rs : List StageOut),
    evalStages th ratio mass sts p = .ok rs → rs.length = sts.length ∧
      ∀ (i : Nat) (hi : i < sts.length) (hi' : i < rs.length),
        evalStage th sts[i] (p * ratio ^ i) mass ratio true = .ok rs[i] ∧
        rs[i].inlet.pressure = p * ratio ^ i ∧ rs[i].outlet.pressure = p * ratio ^ (i + 1) ∧
        rs[i].inlet.temperature = sts[i].temperature ∧ rs[i].mass = mass := by
  intro sts
  induction sts with
  | nil => intro p rs h; cases Except.ok.inj h; simp
  | cons st sts ih =>
    intro p rs h
    unfold evalStages at h
    cases h1 : evalStage th st p mass ratio true with
    | error e => rw [h1] at h; cases h
    | ok r =>
      rw [h1] at h
      simp only at h
      cases h2 : evalStages th ratio mass sts r.outlet.pressure with
      | error e => rw [h2] at h; cases h
      | ok rs' =>
        rw [h2] at h
        cases Except.ok.inj h
        obtain ⟨inlet, change, massAsv, before, eff, c, outlet, g1, g2, g3, e1, e2, e3, -⟩ := stage_parts h1
        have p1 := ht.pt _ _ _ g1
        have q1 := (ht.ph _ _ _ g3).1
        rw [e2, q1] at h2
        obtain ⟨l, ih'⟩ := ih _ _ h2
        refine ⟨by simp [l], ?_⟩
        intro i hi hi'
        cases i with
        | zero =>
          simp only [List.getElem_cons_zero, pow_zero, mul_one, zero_add, pow_one]
          exact ⟨h1, by rw [e1, p1.1], by rw [e2, q1], by rw [e1, p1.2], e3⟩
        | succ i =>
          simp only [List.getElem_cons_succ]
          obtain ⟨a, b, c', d, e⟩ := ih' i (by simpa using hi) (by simpa using hi')
          have e1 : p * ratio * ratio ^ i = p * ratio ^ (i + 1) := by ring
          have e2 : p * ratio * ratio ^ (i + 1) = p * ratio ^ (i + 1 + 1) := by ring
          rw [e1] at a b
          rw [e2] at c'
          exact ⟨a, b, c', d, e⟩

/-- **The train.** A train with flow evaluates every stage, in order, with the same mass rate and the same pressure
ratio: the stages start at the suction pressure times the ratio to their index, at their own inlet temperature. With a
ratio whose `n`-th power is discharge over suction the train ends at the discharge pressure. -/
theorem C84_train (th : Thermo) (ht : Honest th) (stages : List SStage) (maximumPower : Option ℚ)
    (suction ratio rate : ℚ) (out : TrainOut)
    (h : evalTrain th stages maximumPower suction ratio rate = .ok (some out)) :
    out.stages.length = stages.length ∧ stages ≠ [] ∧
    (∃ s, ∃ t ∈ stages.head?, th.flashPT suction t.temperature = some s ∧ 0 < rate * s.stdDensity / 24 ∧
      ∀ (i : Nat) (hi : i < stages.length) (hi' : i < out.stages.length),
        evalStage th stages[i] (suction * ratio ^ i) (rate * s.stdDensity / 24) ratio true = .ok out.stages[i] ∧
        out.stages[i].inlet.pressure = suction * ratio ^ i ∧
        out.stages[i].outlet.pressure = suction * ratio ^ (i + 1) ∧
        out.stages[i].inlet.temperature = stages[i].temperature ∧
        out.stages[i].mass = rate * s.stdDensity / 24) ∧
    (∀ discharge, suction ≠ 0 → ratio ^ stages.length = discharge / suction →
      ∀ l ∈ out.stages.getLast?, l.outlet.pressure = discharge) := by
  cases stages with
  | nil => cases h
  | cons st sts =>
    unfold evalTrain at h
    simp only at h
    cases h1 : plain (th.flashPT suction st.temperature) with
    | error e => rw [h1] at h; cases h
    | ok s =>
      rw [h1] at h
      simp only at h
      by_cases h2 : rate * s.stdDensity / 24 < 0
      · rw [if_pos h2] at h; cases h
      rw [if_neg h2] at h
      by_cases h3 : rate * s.stdDensity / 24 > 0
      · rw [if_pos h3] at h
        cases h4 : evalStages th ratio (rate * s.stdDensity / 24) (st :: sts) s.pressure with
        | error e => rw [h4] at h; cases h
        | ok rs =>
          rw [h4] at h
          cases Option.some.inj (Except.ok.inj h)
          have hp := (ht.pt _ _ _ (plain_ok h1)).1
          rw [hp] at h4
          obtain ⟨l, spec⟩ := stages_spec th ht _ _ _ _ _ h4
          refine ⟨l, by simp, ⟨s, st, rfl, plain_ok h1, h3, spec⟩, ?_⟩
          intro discharge hs hr last hl
          have hpos : 0 < rs.length := by rw [l]; simp
          have hlast : last = rs[rs.length - 1] := by
            rw [List.getLast?_eq_getElem?, List.getElem?_eq_getElem (Nat.sub_lt hpos one_pos)] at hl
            exact (Option.some.inj hl).symm
          have hlt : rs.length - 1 < rs.length := Nat.sub_lt hpos one_pos
          obtain ⟨-, -, c, -⟩ := spec (rs.length - 1) (l ▸ hlt) hlt
          have hn : rs.length - 1 + 1 = (st :: sts).length := by rw [← l]; exact Nat.sub_add_cancel hpos
          rw [hlast, c, hn, hr]
          field_simp
      · rw [if_neg h3] at h; cases Except.ok.inj h

/-- **No flow.** Without flow the train is not evaluated, and nothing is reported about any stage. -/
theorem C84_idle (th : Thermo) (st : SStage) (sts : List SStage) (maximumPower : Option ℚ) (suction ratio : ℚ) (s : State)
    (h : th.flashPT suction st.temperature = some s) :
    evalTrain th (st :: sts) maximumPower suction ratio 0 = .ok none := by
  unfold evalTrain
  simp only
  rw [h]
  simp [plain]

theorem totalPower_some : ∀ {ps : List (Option ℚ)} {t : ℚ}, totalPower ps = some t ↔
    ∃ qs : List ℚ, ps = qs.map some ∧ t = qs.sum := by
  intro ps
  induction ps with
  | nil =>
    intro t
    simp only [totalPower, Option.some.injEq]
    constructor
    · rintro rfl; exact ⟨[], rfl, rfl⟩
    · rintro ⟨qs, h, rfl⟩
      have : qs = [] := by simpa using h.symm
      rw [this]; rfl
  | cons p ps ih =>
    intro t
    unfold totalPower
    constructor
    · intro h
      split at h
      · rename_i a b hb
        cases Option.some.inj h
        obtain ⟨qs, rfl, rfl⟩ := ih.mp hb
        exact ⟨a :: qs, rfl, by simp⟩
      · cases h
    · rintro ⟨qs, h, rfl⟩
      cases qs with
      | nil => cases h
      | cons q qs =>
        simp only [List.map_cons, List.cons.injEq] at h
        obtain ⟨rfl, rfl⟩ := h
        rw [ih.mpr ⟨qs, rfl, rfl⟩]
        simp

/-- **Maximum power.** Too much power is reported exactly when there is a maximum (other than zero), every stage is
within its capacity, and the stage powers sum to more than the maximum. -/
theorem C84_maximum_power (th : Thermo) (stages : List SStage) (maximumPower : Option ℚ) (suction ratio rate : ℚ)
    (out : TrainOut) (h : evalTrain th stages maximumPower suction ratio rate = .ok (some out)) :
    out.abovePower = true ↔ ∃ m, maximumPower = some m ∧ m ≠ 0 ∧
      ∃ ps : List ℚ, out.stages.map (·.power) = ps.map some ∧ m < ps.sum := by
  have hx : out.abovePower = exceedsPower maximumPower (out.stages.map (·.power)) := by
    cases stages with
    | nil => cases h
    | cons st sts =>
      unfold evalTrain at h
      simp only at h
      cases h1 : plain (th.flashPT suction st.temperature) with
      | error e => rw [h1] at h; cases h
      | ok s =>
        rw [h1] at h
        simp only at h
        by_cases h2 : rate * s.stdDensity / 24 < 0
        · rw [if_pos h2] at h; cases h
        rw [if_neg h2] at h
        by_cases h3 : rate * s.stdDensity / 24 > 0
        · rw [if_pos h3] at h
          cases h4 : evalStages th ratio (rate * s.stdDensity / 24) (st :: sts) s.pressure with
          | error e => rw [h4] at h; cases h
          | ok rs => rw [h4] at h; cases Option.some.inj (Except.ok.inj h); rfl
        · rw [if_neg h3] at h; cases Except.ok.inj h
  rw [hx]
  unfold exceedsPower
  cases maximumPower with
  | none => simp
  | some m =>
    simp only [Option.some.injEq]
    by_cases hm : m = 0
    · rw [if_pos hm]
      constructor
      · intro h; cases h
      · rintro ⟨m', rfl, h, -⟩; exact absurd hm h
    · rw [if_neg hm]
      constructor
      · intro h
        cases ht : totalPower (out.stages.map (·.power)) with
        | none => rw [ht] at h; cases h
        | some t =>
          rw [ht] at h
          obtain ⟨qs, h1, rfl⟩ := totalPower_some.mp ht
          exact ⟨m, rfl, hm, qs, h1, by simpa using h⟩
      · rintro ⟨m', rfl, -, qs, h1, h2⟩
        rw [totalPower_some.mpr ⟨qs, h1, rfl⟩]
        simpa using h2

/-- **Head and efficiency belong together.** When the head iteration converges, the enthalpy change is Campbell's head for
the pressure ratio divided by the efficiency, the efficiency is read off the chart at a head within one part in a
thousand, and Campbell's head uses the mean of the inlet gas and an outlet gas at the outlet pressure that has taken up
the previous round's work. -/
theorem C84_consistent (th : Thermo) (effOf : ℚ → ℚ → ℚ) (inlet : State) (rate out change eff : ℚ)
    (h : headIteration th effOf inlet rate out = .ok (change, eff, true)) :
    ∃ previous eff' s, eff = effOf rate previous ∧
      th.flashPH out (inlet.enthalpy + previous / eff') = some s ∧
      change = th.head eff ((inlet.kappa + s.kappa) / 2) ((inlet.z + s.z) / 2) (out / inlet.pressure)
        inlet.temperature / eff ∧
      |th.head eff ((inlet.kappa + s.kappa) / 2) ((inlet.z + s.z) / 2) (out / inlet.pressure) inlet.temperature - previous|
        < 1 / 1000 * |previous| := by
  have loop : ∀ n previous z k ch0 e0,
      (previous ≠ 0 → ∃ eff' s, th.flashPH out (inlet.enthalpy + previous / eff') = some s ∧
        z = (inlet.z + s.z) / 2 ∧ k = (inlet.kappa + s.kappa) / 2) →
      headLoop th effOf inlet rate out n previous z k ch0 e0 = .ok (change, eff, true) →
      ∃ previous eff' s, eff = effOf rate previous ∧
        th.flashPH out (inlet.enthalpy + previous / eff') = some s ∧
        change = th.head eff ((inlet.kappa + s.kappa) / 2) ((inlet.z + s.z) / 2) (out / inlet.pressure)
          inlet.temperature / eff ∧
        |th.head eff ((inlet.kappa + s.kappa) / 2) ((inlet.z + s.z) / 2) (out / inlet.pressure) inlet.temperature
          - previous| < 1 / 1000 * |previous| := by
    intro n
    induction n with
    | zero => intro _ _ _ _ _ _ hl; cases Except.ok.inj hl
    | succ n ih =>
      intro previous z k ch0 e0 inv hl
      unfold headLoop at hl
      simp only at hl
      cases hf : plain (th.flashPH out (inlet.enthalpy +
          th.head (effOf rate previous) k z (out / inlet.pressure) inlet.temperature / effOf rate previous)) with
      | error e => rw [hf] at hl; cases hl
      | ok s =>
        rw [hf] at hl
        simp only at hl
        by_cases hc : closeHeads previous (th.head (effOf rate previous) k z (out / inlet.pressure) inlet.temperature) = true
        · rw [if_pos hc] at hl
          have hl' := Except.ok.inj hl
          simp only [Prod.mk.injEq, and_true] at hl'
          obtain ⟨rfl, rfl⟩ := hl'
          unfold closeHeads at hc
          simp only [Bool.and_eq_true, decide_eq_true_eq] at hc
          obtain ⟨eff', s', i1, rfl, rfl⟩ := inv hc.1
          refine ⟨previous, eff', s', rfl, i1, rfl, ?_⟩
          have := hc.2
          rwa [div_lt_iff₀ (abs_pos.mpr hc.1)] at this
        · rw [if_neg hc] at hl
          exact ih _ _ _ _ _ (fun _ => ⟨_, s, plain_ok hf, rfl, rfl⟩) hl
  exact loop 20 0 _ _ _ _ (fun h => absurd rfl h) h

/-! ### A gas whose head does not depend on its state -/

/-- Campbell's head is the same for every state of the gas, and every flash at a positive pressure succeeds with a usable state. -/
structure Steady (th : Thermo) (H : ℚ) : Prop where
  head : ∀ e k z r t, th.head e k z r t = H
  flash : ∀ p h, 0 < p → ∃ s, th.flashPH p h = some s ∧ C83.Accepted s h

theorem steady_iteration {th : Thermo} {H : ℚ} (hs : Steady th H) (hH : H ≠ 0) (effOf : ℚ → ℚ → ℚ) (inlet : State)
    (rate out : ℚ) (ho : 0 < out) : headIteration th effOf inlet rate out = .ok (H / effOf rate H, effOf rate H, true) := by
  unfold headIteration
  unfold headLoop
  simp only [hs.head]
  obtain ⟨s, h1, -⟩ := hs.flash out (inlet.enthalpy + H / effOf rate 0) ho
  rw [h1]
  simp only [plain]
  have c0 : closeHeads 0 H = false := by simp [closeHeads]
  rw [c0]
  simp only [Bool.false_eq_true, if_false]
  unfold headLoop
  simp only [hs.head]
  obtain ⟨s', h2, -⟩ := hs.flash out (inlet.enthalpy + H / effOf rate H) ho
  rw [h2]
  have c1 : closeHeads H H = true := by simp [closeHeads, hH]
  simp only [plain, c1, if_true]

theorem flashed {th : Thermo} {H : ℚ} (hs : Steady th H) (p h : ℚ) (hp : 0 < p) : ∃ s, flashChecked th.flashPH p h = .ok s := by
  obtain ⟨s, h1, h2⟩ := hs.flash p h hp
  exact ⟨s, C83.flash_ok.mpr ⟨h1, h2⟩⟩

theorem steady_max {th : Thermo} {H : ℚ} (hs : Steady th H) (st : SStage) (inlet : State) (ratio : ℚ) (hr : 1 ≤ ratio)
    (hp : 0 < inlet.pressure) (h0 : 1 ≤ st.chart.maximumRate (meanHead st.chart) false) (h1 : st.chart.maximumRate H false ≠ 0) :
    maxRateStage th st inlet ratio = .ok (st.chart.maximumRate H false * inlet.density / inlet.stdDensity * 24) := by
  unfold maxRateStage
  rw [if_neg (not_lt.mpr hr)]
  have hpr : 0 < inlet.pressure * ratio := by positivity
  have loop2 : ∀ n z k, maxRateLoop th st inlet ratio (n + 1) H z k (st.chart.maximumRate H false) =
      .ok (st.chart.maximumRate H false) := by
    intro n z k
    unfold maxRateLoop
    simp only [hs.head]
    obtain ⟨s, e⟩ := flashed hs (inlet.pressure * ratio) (inlet.enthalpy + H / st.efficiency (st.chart.maximumRate H false) H) hpr
    rw [e]
    have : closeRates (st.chart.maximumRate H false) (st.chart.maximumRate H false) = true := by
      simp [closeRates, h1]
    simp only [this, if_true]
  have loop1 : ∀ n z k prev, maxRateLoop th st inlet ratio (n + 2) H z k prev = .ok (st.chart.maximumRate H false) := by
    intro n z k prev
    unfold maxRateLoop
    simp only [hs.head]
    obtain ⟨s, e⟩ := flashed hs (inlet.pressure * ratio) (inlet.enthalpy + H / st.efficiency (st.chart.maximumRate H false) H) hpr
    rw [e]
    simp only
    split_ifs
    · rfl
    · exact loop2 n _ _
  have first : maxRateLoop th st inlet ratio 20 (meanHead st.chart) inlet.z inlet.kappa (1 / 100000) =
      .ok (st.chart.maximumRate H false) := by
    unfold maxRateLoop
    simp only [hs.head]
    generalize st.chart.maximumRate (meanHead st.chart) false = r0 at h0 ⊢
    obtain ⟨s, e⟩ := flashed hs (inlet.pressure * ratio) (inlet.enthalpy + H / st.efficiency r0 (meanHead st.chart)) hpr
    rw [e]
    have : closeRates (1 / 100000) r0 = false := by
      unfold closeRates
      rw [Bool.and_eq_false_iff]
      right
      rw [decide_eq_false_iff_not, not_lt, abs_of_pos (show (0 : ℚ) < 1 / 100000 by norm_num),
        abs_of_pos (show (0 : ℚ) < r0 - 1 / 100000 by linarith), le_div_iff₀ (by norm_num)]
      linarith
    simp only [this]
    exact loop1 17 _ _ _
  rw [first]

theorem steady_valid {th : Thermo} {H : ℚ} (hs : Steady th H) (hH : H ≠ 0) (st : SStage)
    (he : ∀ x y, st.efficiency x y ≠ 0) {p mass ratio : ℚ} (hp : 0 < p * ratio) (hm : 0 < mass) {r : StageOut}
    (h : evalStage th st p mass ratio true = .ok r) :
    r.valid = true ↔ (st.chart.capacity (mass / r.inlet.density) H true).exceeds = false := by
  obtain ⟨inlet, change, massAsv, before, eff, c, outlet, h1, h2, h3, e1, e2, e3, e4, e5, e6, e7, e8, e9, e10, e11, e12,
    e13, e14⟩ := stage_parts h
  obtain ⟨ch, ef, conv, hi, hq⟩ := corrections_run hm h2
  rw [steady_iteration hs hH _ _ _ _ hp] at hi
  have hi' := Except.ok.inj hi
  simp only [Prod.mk.injEq] at hi'
  obtain ⟨rfl, rfl, -⟩ := hi'
  rw [div_mul_cancel₀ _ (he _ _)] at hq
  cases hq
  rw [e14, e5, e1]
  cases (st.chart.capacity (mass / inlet.density) H true).exceeds <;> simp

/-- **The maximum rate is the largest valid one.** When the head does not depend on the state of the gas and lies on the
fastest curve, the maximum rate of a stage is exactly the largest standard rate at which the stage is valid. -/
theorem C84_maximum_rate (th : Thermo) (H : ℚ) (hs : Steady th H) (hH : H ≠ 0) (st : SStage)
    (he : ∀ x y, st.efficiency x y ≠ 0) (hw : Walled st.chart) (h1 : st.chart.high.last.head ≤ H)
    (h2 : H ≤ st.chart.high.first.head) (hmin : st.chart.minRateAt H ≤ st.chart.high.rateAt H)
    (hpos : 0 < st.chart.high.minRate) (hguess : 1 ≤ st.chart.maximumRate (meanHead st.chart) false)
    (p ratio : ℚ) (hr : 1 ≤ ratio) (inlet : State) (hin : th.flashPT p st.temperature = some inlet)
    (hp : 0 < p) (hp' : 0 < inlet.pressure) (hd : 0 < inlet.density) (hsd : 0 < inlet.stdDensity) :
    ∃ m, maxRateStage th st inlet ratio = .ok m ∧ 0 < m ∧
      ∀ rate r, 0 < rate → evalStage th st p (rate * inlet.stdDensity / 24) ratio true = .ok r →
        (r.valid = true ↔ rate ≤ m) := by
  have hmax : st.chart.maximumRate H false = st.chart.high.rateAt H := (C61_stone_wall st.chart hw H).2.2 h1
  obtain ⟨-, b1, -⟩ := (C58_maximum_rate st.chart hw.increasing hw.drops H).2.2.2 h1 h2
  rw [(C58_maximum_rate st.chart hw.increasing hw.drops H).1] at b1
  have hrpos : 0 < st.chart.high.rateAt H := lt_of_lt_of_le hpos b1
  refine ⟨_, steady_max hs st inlet ratio hr hp' hguess (by rw [hmax]; exact hrpos.ne'), ?_, ?_⟩
  · rw [hmax]; positivity
  · intro rate r hrate h
    have hm : 0 < rate * inlet.stdDensity / 24 := by positivity
    rw [steady_valid hs hH st he (by positivity) hm h]
    obtain ⟨inlet', _, _, _, _, _, _, g1, -, -, e1, -⟩ := stage_parts h
    rw [hin] at g1
    cases Option.some.inj g1
    rw [e1, C61_capacity _ hw.toOrdinary, hmax]
    have hmm := (C58_valid_region st.chart hw.toOrdered).1
    have hcap : (st.chart.capacity (rate * inlet.stdDensity / 24 / inlet.density) H true).rate =
        max (st.chart.minRateAt H) (rate * inlet.stdDensity / 24 / inlet.density) := by simp [Chart.capacity]
    have hhead : (st.chart.capacity (rate * inlet.stdDensity / 24 / inlet.density) H true).head =
        max (st.chart.minHeadAt (max (st.chart.minRateAt H) (rate * inlet.stdDensity / 24 / inlet.density))) H := by
      simp [Chart.capacity]
    rw [hcap, hhead]
    unfold Inside
    have key : (max (st.chart.minRateAt H) (rate * inlet.stdDensity / 24 / inlet.density) ≤ st.chart.high.maxRate ∧
        max (st.chart.minHeadAt (max (st.chart.minRateAt H) (rate * inlet.stdDensity / 24 / inlet.density))) H ≤
          st.chart.high.headAt (max (st.chart.minRateAt H) (rate * inlet.stdDensity / 24 / inlet.density))) ↔
        max (st.chart.minRateAt H) (rate * inlet.stdDensity / 24 / inlet.density) ≤ st.chart.high.rateAt H := by
      rw [right_iff_above hw.toOrdinary h1 h2]
      constructor
      · rintro ⟨x, y⟩; exact ⟨x, le_trans (le_max_right _ _) y⟩
      · rintro ⟨x, y⟩; exact ⟨x, max_le (hmm _) y⟩
    rw [key, max_le_iff, div_le_iff₀ hd]
    constructor
    · rintro ⟨-, x⟩
      rw [div_mul_eq_mul_div, le_div_iff₀ hsd]
      linarith
    · intro x
      rw [div_mul_eq_mul_div, le_div_iff₀ hsd] at x
      exact ⟨hmin, by linarith⟩

/-- **Deviation: a maximum rate for a head that no speed reaches.** When the head is above the whole chart, no rate is
valid, yet the maximum rate is reported as the rate at the surge point of the fastest curve. -/
theorem C84_unattainable (th : Thermo) (H : ℚ) (hs : Steady th H) (st : SStage)
    (he : ∀ x y, st.efficiency x y ≠ 0) (hw : Walled st.chart) (h2 : st.chart.high.first.head < H) (hH : H ≠ 0)
    (hpos : 0 < st.chart.high.minRate) (hguess : 1 ≤ st.chart.maximumRate (meanHead st.chart) false)
    (p ratio : ℚ) (hr : 1 ≤ ratio) (inlet : State) (hp : 0 < p) (hp' : 0 < inlet.pressure) :
    maxRateStage th st inlet ratio =
      .ok (st.chart.high.minRate * inlet.density / inlet.stdDensity * 24) ∧
    ∀ mass r, 0 < mass → evalStage th st p mass ratio true = .ok r → r.valid = false := by
  have hlast : st.chart.high.last.head ≤ H := by
    have := head_le_first hw.falls _ (last_mem st.chart.high)
    linarith
  have hmax : st.chart.maximumRate H false = st.chart.high.minRate := by
    have e1 : st.chart.maximumRate H false = st.chart.high.rateAt H := (C61_stone_wall st.chart hw H).2.2 hlast
    obtain ⟨a, -, b, -⟩ := C58_maximum_rate st.chart hw.increasing hw.drops H
    rw [e1, ← a, b h2]
  constructor
  · rw [steady_max hs st inlet ratio hr hp' hguess (by rw [hmax]; exact hpos.ne'), hmax]
  · intro mass r hm h
    rw [← Bool.not_eq_true, steady_valid hs hH st he (by positivity) hm h, C61_capacity _ hw.toOrdinary]
    rintro ⟨-, y⟩
    have hc := (C61_corrected st.chart (mass / r.inlet.density) H).2.1.1 H (by simp)
    have := (high_range hw.toOrdinary (st.chart.capacity (mass / r.inlet.density) H true).rate).2
    linarith

/-! ### The train's maximum rate -/

theorem inletPressures_spec (ratio : ℚ) : ∀ (n : Nat) (p : ℚ), (inletPressures ratio n p).length = n ∧
    ∀ i (hi : i < (inletPressures ratio n p).length), (inletPressures ratio n p)[i] = p * ratio ^ i := by
  intro n
  induction n with
  | zero => intro p; simp [inletPressures]
  | succ n ih =>
    intro p
    obtain ⟨l, s⟩ := ih (p * ratio)
    refine ⟨by simp [inletPressures, l], ?_⟩
    intro i hi
    cases i with
    | zero => simp [inletPressures]
    | succ i =>
      simp only [inletPressures, List.getElem_cons_succ]
      rw [s]; ring

theorem maxRates_spec (th : Thermo) (ratio : ℚ) : ∀ (l : List (SStage × ℚ)) (rs : List ℚ), maxRates th ratio l = .ok rs →
    rs.length = l.length ∧ ∀ i (hi : i < l.length) (hi' : i < rs.length),
      ∃ inlet, th.flashPT l[i].2 l[i].1.temperature = some inlet ∧ maxRateStage th l[i].1 inlet ratio = .ok rs[i] := by
  intro l
  induction l with
  | nil => intro rs h; cases Except.ok.inj h; simp
  | cons a l ih =>
    obtain ⟨st, p⟩ := a
    intro rs h
    unfold maxRates at h
    cases h1 : plain (th.flashPT p st.temperature) with
    | error e => rw [h1] at h; cases h
    | ok inlet =>
      rw [h1] at h
      simp only at h
      cases h2 : maxRateStage th st inlet ratio with
      | error e => rw [h2] at h; cases h
      | ok r =>
        rw [h2] at h
        simp only at h
        cases h3 : maxRates th ratio l with
        | error e => rw [h3] at h; cases h
        | ok rs' =>
          rw [h3] at h
          cases Except.ok.inj h
          obtain ⟨l1, s1⟩ := ih _ h3
          refine ⟨by simp [l1], ?_⟩
          intro i hi hi'
          cases i with
          | zero => exact ⟨inlet, plain_ok h1, h2⟩
          | succ i => exact s1 i (by simpa using hi) (by simpa using hi')

theorem foldl_min_spec : ∀ (l : List ℚ) (a : ℚ), (l.foldl min a = a ∨ l.foldl min a ∈ l) ∧ l.foldl min a ≤ a ∧
    ∀ x ∈ l, l.foldl min a ≤ x := by
  intro l
  induction l with
  | nil => intro a; simp
  | cons b l ih =>
    intro a
    obtain ⟨h1, h2, h3⟩ := ih (min a b)
    simp only [List.foldl_cons]
    refine ⟨?_, le_trans h2 (min_le_left _ _), ?_⟩
    · rcases h1 with h1 | h1
      · rw [h1]
        rcases min_choice a b with h | h
        · left; exact h
        · right; rw [h]; simp
      · right; exact List.mem_cons_of_mem _ h1
    · intro x hx
      rcases List.mem_cons.mp hx with rfl | hx
      · exact le_trans h2 (min_le_right _ _)
      · exact h3 x hx

/-- **The weakest stage decides.** The maximum rate of a train is the smallest of the maximum rates of its stages, each
taken at the pressure the stage gets when all stages have the same ratio. -/
theorem C84_weakest_stage (th : Thermo) (stages : List SStage) (suction ratio m : ℚ)
    (h : maxRateTrain th stages suction ratio = .ok m) :
    ∃ rs : List ℚ, rs.length = stages.length ∧ m ∈ rs ∧ (∀ x ∈ rs, m ≤ x) ∧
      ∀ i (hi : i < stages.length) (hi' : i < rs.length),
        ∃ inlet, th.flashPT (suction * ratio ^ i) stages[i].temperature = some inlet ∧
          maxRateStage th stages[i] inlet ratio = .ok rs[i] := by
  unfold maxRateTrain at h
  cases h1 : maxRates th ratio (stages.zip (inletPressures ratio stages.length suction)) with
  | error e => rw [h1] at h; cases h
  | ok rs =>
    rw [h1] at h
    cases rs with
    | nil => cases h
    | cons r rs =>
      cases Except.ok.inj h
      obtain ⟨l, s⟩ := maxRates_spec th ratio _ _ h1
      obtain ⟨pl, ps⟩ := inletPressures_spec ratio stages.length suction
      obtain ⟨f1, f2, f3⟩ := foldl_min_spec rs r
      refine ⟨r :: rs, by rw [l]; simp [pl], ?_, ?_, ?_⟩
      · rcases f1 with f1 | f1
        · rw [f1]; simp
        · exact List.mem_cons_of_mem _ f1
      · intro x hx
        rcases List.mem_cons.mp hx with rfl | hx
        · exact f2
        · exact f3 x hx
      · intro i hi hi'
        obtain ⟨inlet, a, b⟩ := s i (by simp [pl]; exact hi) hi'
        simp only [List.getElem_zip] at a b
        rw [ps] at a
        exact ⟨inlet, a, b⟩

/-- **A train does not expand.** A ratio below one has no maximum rate: it is refused. -/
theorem C84_no_expansion (th : Thermo) (stages : List SStage) (suction ratio m : ℚ) (hr : ratio < 1) :
    maxRateTrain th stages suction ratio ≠ .ok m := by
  intro h
  obtain ⟨rs, l, hm, -, hs⟩ := C84_weakest_stage th stages suction ratio m h
  have hpos : 0 < rs.length := List.length_pos_of_mem hm
  obtain ⟨inlet, -, h2⟩ := hs 0 (by omega) hpos
  unfold maxRateStage at h2
  rw [if_pos hr] at h2
  cases h2

/-! ## Examples -/

/-- A gas with a constant head of 4800 J/kg, one kilogram per cubic metre. -/
def exThermo (H : ℚ) : Thermo :=
  ⟨fun p t => some ⟨p, t, 1, 0, 1, 3 / 2, 1, 1⟩, fun p h => some ⟨p, 300, 1, h, 1, 3 / 2, 1, 1⟩, fun _ _ _ _ _ => H⟩

def exStage : SStage := ⟨300, exPump.chart, fun _ _ => 4 / 5⟩

example : Honest (exThermo 4800) := ⟨by rintro p t s h; cases h; exact ⟨rfl, rfl⟩, by rintro p h s h'; cases h'; exact ⟨rfl, rfl⟩⟩

/-- Two stages from 10 to 90 bar at 300 m3/h: 30 and 90 bar, 6000 J/kg each. -/
example : (evalTrain (exThermo 4800) [exStage, exStage] none 10 3 7200).toOption.map
    (fun o => o.map fun t => t.stages.map fun s => (s.outlet.pressure, s.change, s.massAsv, s.area)) =
    some (some [(30, 6000, 300, .internal), (90, 6000, 300, .internal)]) := by decide +kernel

/-- 100 m3/h is recirculated up to 260. -/
example : (evalStage (exThermo 4800) exStage 10 100 3 true).toOption.map (fun s => (s.massAsv, s.area, s.valid)) =
    some (260, .belowFlow, true) := by decide +kernel

/-- The maximum rate is on the fastest curve at this head, and one cubic metre more is not valid. -/
example : ∃ m, maxRateTrain (exThermo 4800) [exStage, exStage] 10 3 = .ok m ∧ m = exPump.chart.high.rateAt 4800 * 24 ∧
    (evalStage (exThermo 4800) exStage 10 (m / 24) 3 true).toOption.map (·.valid) = some true ∧
    (evalStage (exThermo 4800) exStage 10 (m / 24 + 1) 3 true).toOption.map (·.valid) = some false :=
  ⟨exPump.chart.high.rateAt 4800 * 24, by decide +kernel, rfl, by decide +kernel, by decide +kernel⟩

/-- Above the chart: a maximum rate that is not valid. -/
example : maxRateTrain (exThermo 9000) [exStage] 10 3 = .ok (exPump.chart.high.minRate * 24) ∧
    (evalStage (exThermo 9000) exStage 10 (exPump.chart.high.minRate) 3 true).toOption.map (·.valid) = some false ∧
    (evalStage (exThermo 9000) exStage 10 100 3 true).toOption.map (fun s => (s.valid, s.area, s.headExceeds)) =
      some (false, .belowFlow, true) := by decide +kernel

/-- The hypotheses of the two theorems about the maximum rate hold for this chart. -/
example : Walled exStage.chart ∧ Steady (exThermo 4800) 4800 ∧ exStage.chart.minRateAt 4800 ≤ exStage.chart.high.rateAt 4800 ∧
    0 < exStage.chart.high.minRate ∧ 1 ≤ exStage.chart.maximumRate (meanHead exStage.chart) false := by
  refine ⟨exWalled, ⟨fun _ _ _ _ _ => rfl, fun p h hp => ?_⟩, by decide +kernel, by decide +kernel, by decide +kernel⟩
  exact ⟨_, rfl, hp, by norm_num, by norm_num, by norm_num, by norm_num, by norm_num, by norm_num, by norm_num⟩

end Verif.C84
