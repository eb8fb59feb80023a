import Verif.Model.Stage
import Verif.Props.C41
import Verif.Props.C48
import Mathlib.Tactic.FieldSimp
import Mathlib.Tactic.NormNum
import Mathlib.Data.List.Induction

/-!
# C66: recirculation in a compressor stage
-/

namespace Verif.C66
open Verif.Process Verif.Stage Verif.C40 Verif.C41

/-! ## Specification -/

/-- How much to recirculate: as little as the chart allows, a given mass rate, or a fraction of the free capacity. -/
inductive Setting where
  | least
  | mass (v : ℚ)
  | fraction (f : ℚ)

/-- What can happen to a rate modifier. -/
inductive Op where
  | setMass (v : ℚ)
  | setFraction (f : ℚ)
  | reset
  | addRate (lo hi : ℚ) (s : Stream)

/-- The setting after some operations: the last one made, whatever has been computed in between. -/
def setting (ops : List Op) : Setting :=
  ops.foldl (fun cur op => match op with
    | .setMass v => .mass v
    | .setFraction f => .fraction f
    | .reset => .least
    | .addRate _ _ _ => cur) .least

/-- Carrying out operations on a modifier; a failing `add_rate` leaves it as it is. -/
def run (ops : List Op) : Modifier :=
  ops.foldl (fun m op => match op with
    | .setMass v => m.setMass v
    | .setFraction f => m.setFraction f
    | .reset => m.reset
    | .addRate lo hi s => match m.addRate lo hi s with
      | .ok (_, m') => m'
      | .error _ => m) .fresh

/-- The volume flow asked for, before the lower limit of the chart. -/
def wanted : Setting → (flow density hi : ℚ) → ℚ
  | .least, flow, _, _ => flow
  | .mass v, flow, density, _ => flow + v / density
  | .fraction f, flow, _, hi => flow + f * max 0 (hi - flow)

/-- The volume flow through the machine. -/
def gross (st : Setting) (flow density lo hi : ℚ) : ℚ := max lo (wanted st flow density hi)

/-- The modifier has this setting. -/
def Has (m : Modifier) : Setting → Prop
  | .least => m.massRate = none ∧ m.fraction = none
  | .mass v => m.massRate = some v ∧ m.fraction = none
  | .fraction f => m.massRate = none ∧ m.fraction = some f

/-- Energy for each unit of mass sent through the machine, as power (MW for kJ/kg and kg/h). -/
def power (enthalpy mass : ℚ) : ℚ := enthalpy * mass / 3600000

/-! ## The rate modifier -/

theorem addRate_keeps {m m' : Modifier} {lo hi : ℚ} {s o : Stream} (h : m.addRate lo hi s = .ok (o, m')) :
    m'.massRate = m.massRate ∧ m'.fraction = m.fraction := by
  unfold Modifier.addRate at h
  obtain ⟨a, -, h⟩ := C48.bind_ok h
  cases h
  exact ⟨rfl, rfl⟩

theorem run_append (ops : List Op) (op : Op) : run (ops ++ [op]) = (match op with
    | .setMass v => (run ops).setMass v
    | .setFraction f => (run ops).setFraction f
    | .reset => (run ops).reset
    | .addRate lo hi s => match (run ops).addRate lo hi s with
      | .ok (_, m') => m'
      | .error _ => run ops) := by
  unfold run
  rw [List.foldl_append]
  rfl

/-- **The last setting counts.** Whatever was set, reset or computed before, the modifier has the setting made last,
and never a mass rate and a fraction at the same time. -/
theorem C66_setting (ops : List Op) : Has (run ops) (setting ops) := by
  induction ops using List.reverseRecOn with
  | nil => exact ⟨rfl, rfl⟩
  | append_singleton ops op ih =>
    rw [run_append]
    unfold setting
    rw [List.foldl_append]
    change Has _ (match op with
      | .setMass v => Setting.mass v
      | .setFraction f => Setting.fraction f
      | .reset => Setting.least
      | .addRate _ _ _ => setting ops)
    cases op with
    | setMass v => exact ⟨rfl, rfl⟩
    | setFraction f => exact ⟨rfl, rfl⟩
    | reset => exact ⟨rfl, rfl⟩
    | addRate lo hi s =>
      simp only
      cases hx : (run ops).addRate lo hi s with
      | error e => simpa only using ih
      | ok p =>
        obtain ⟨o, m'⟩ := p
        simp only
        obtain ⟨h1, h2⟩ := addRate_keeps hx
        revert ih
        cases setting ops <;> simp only [Has, h1, h2] <;> exact id

/-- `add_rate`, unfolded for a setting. -/
theorem addRate_eq (m : Modifier) (st : Setting) (hm : Has m st) (lo hi : ℚ) (s : Stream) (hd : 0 < s.props.density) :
    m.addRate lo hi s =
      (Stream.make s.model s.props (gross st s.volRate s.props.density lo hi * s.props.density)).map
        (fun o => (o, { m with additional := gross st s.volRate s.props.density lo hi * s.props.density - s.mass })) := by
  have hne : s.props.density ≠ 0 := ne_of_gt hd
  have key : ∀ (a x : ℚ), a = s.volRate + x →
      s.mass + (if max 0 (lo - a) > 0 then x + max 0 (lo - a) else x) * s.props.density = max lo a * s.props.density ∧
      (if max 0 (lo - a) > 0 then x + max 0 (lo - a) else x) * s.props.density = max lo a * s.props.density - s.mass := by
    intro a x ha
    have hv : s.volRate * s.props.density = s.mass := by unfold Stream.volRate; field_simp
    have h1 : (if max 0 (lo - a) > 0 then x + max 0 (lo - a) else x) = max lo a - s.volRate := by
      by_cases h : 0 < lo - a
      · rw [max_eq_right h.le, if_pos h, max_eq_left (by linarith)]; linarith
      · rw [max_eq_left (not_lt.1 h), if_neg (lt_irrefl _), max_eq_right (by linarith)]; linarith
    rw [h1, sub_mul, hv]
    constructor <;> ring
  have fin : ∀ (a x : ℚ), a = s.volRate + x → max lo a = gross st s.volRate s.props.density lo hi →
      (Stream.make s.model s.props (s.mass + (if max 0 (lo - a) > 0 then x + max 0 (lo - a) else x) * s.props.density) >>=
        fun out => pure (out, { m with additional :=
          (if max 0 (lo - a) > 0 then x + max 0 (lo - a) else x) * s.props.density })) =
      (Stream.make s.model s.props (gross st s.volRate s.props.density lo hi * s.props.density)).map
        (fun o => (o, { m with additional := gross st s.volRate s.props.density lo hi * s.props.density - s.mass })) := by
    intro a x ha hg
    obtain ⟨k1, k2⟩ := key a x ha
    rw [k1, k2, hg]
    cases Stream.make s.model s.props (gross st s.volRate s.props.density lo hi * s.props.density) <;> rfl
  unfold Modifier.addRate Stream.withMass
  obtain ⟨add, mr, fr⟩ := m
  cases st with
  | least =>
    obtain ⟨rfl, rfl⟩ : mr = none ∧ fr = none := hm
    exact fin s.volRate 0 (by ring) rfl
  | mass v =>
    obtain ⟨rfl, rfl⟩ : mr = some v ∧ fr = none := hm
    refine fin (s.volRate + (0 + v / s.props.density)) (0 + v / s.props.density) rfl ?_
    unfold gross wanted
    rw [zero_add]
  | fraction f =>
    obtain ⟨rfl, rfl⟩ : mr = none ∧ fr = some f := hm
    refine fin (s.volRate + (0 + f * max 0 (hi - s.volRate))) (0 + f * max 0 (hi - s.volRate)) rfl ?_
    unfold gross wanted
    rw [zero_add]

/-- **Flow through the machine.** The stream sent into the machine is the same fluid in the same condition. Its volume
flow is the flow asked for by the setting, or the least flow of the chart if that is larger. Nothing else can happen,
but that the resulting flow would be negative. -/
theorem C66_flow (ops : List Op) (lo hi : ℚ) (s : Stream) (hd : 0 < s.props.density) :
    (0 ≤ gross (setting ops) s.volRate s.props.density lo hi →
      ∃ o m', (run ops).addRate lo hi s = .ok (o, m') ∧ o.model = s.model ∧ o.props = s.props ∧
        o.volRate = gross (setting ops) s.volRate s.props.density lo hi ∧ m'.removeRate o = s.withMass s.mass) ∧
    (gross (setting ops) s.volRate s.props.density lo hi < 0 → (run ops).addRate lo hi s = .error .negativeMass) := by
  have hne : s.props.density ≠ 0 := ne_of_gt hd
  rw [addRate_eq _ _ (C66_setting ops) lo hi s hd]
  constructor
  · intro h
    refine ⟨⟨s.model, s.props, gross (setting ops) s.volRate s.props.density lo hi * s.props.density⟩,
      { run ops with additional := gross (setting ops) s.volRate s.props.density lo hi * s.props.density - s.mass }, ?_,
      rfl, rfl, ?_, ?_⟩
    · rw [Stream.make, if_neg (not_lt.2 (mul_nonneg h hd.le))]; rfl
    · unfold Stream.volRate; field_simp
    · unfold Modifier.removeRate Stream.withMass
      simp only
      congr 1
      ring
  · intro h
    rw [Stream.make, if_pos (mul_neg_of_neg_of_pos h hd)]
    rfl

/-- **Fraction of the free capacity.** With a fraction between 0 and 1 and a flow not above the largest flow of the
chart, the flow through the machine stays within the chart. Fraction 0 gives the flow itself (or the least flow),
fraction 1 the largest flow, and a larger fraction a larger flow. A flow above the largest flow is left alone. -/
theorem C66_fraction (f flow density lo hi : ℚ) (h0 : 0 ≤ f) (h1 : f ≤ 1) (hl : lo ≤ hi) :
    (flow ≤ hi → lo ≤ gross (.fraction f) flow density lo hi ∧ gross (.fraction f) flow density lo hi ≤ hi) ∧
    gross (.fraction 0) flow density lo hi = max lo flow ∧
    (flow ≤ hi → gross (.fraction 1) flow density lo hi = hi) ∧
    (∀ g, f ≤ g → gross (.fraction f) flow density lo hi ≤ gross (.fraction g) flow density lo hi) ∧
    (hi ≤ flow → gross (.fraction f) flow density lo hi = flow) := by
  unfold gross wanted
  refine ⟨fun h => ?_, by simp, fun h => ?_, fun g hg => ?_, fun h => ?_⟩
  · refine ⟨le_max_left _ _, max_le hl ?_⟩
    simp only
    rw [max_eq_right (by linarith)]
    nlinarith
  · simp only
    rw [max_eq_right (by linarith : 0 ≤ hi - flow), max_eq_right (by linarith)]
    ring
  · have : 0 ≤ max 0 (hi - flow) := le_max_left _ _
    exact max_le_max le_rfl (by simp only; nlinarith)
  · simp only
    rw [max_eq_left (by linarith : hi - flow ≤ 0), mul_zero, add_zero, max_eq_right (by linarith)]

/-! ## The stage -/

theorem compress_mass {c : Machine} {speed before : ℚ} {s o : Stream} {p : Point}
    (h : c.compress speed before s = .ok (o, p)) : o.mass = s.mass ∧ o.model = s.model ∧ p.eff ≠ 0 ∧
      c.point speed s.volRate before = .ok p := by
  unfold Machine.compress at h
  obtain ⟨q, hq, h⟩ := C48.bind_ok h
  split at h
  · cases h
  · rename_i he
    split at h
    · obtain ⟨o', ho', h⟩ := C48.bind_ok h
      cases h
      obtain ⟨rfl, -⟩ := C41.make_ok _ _ _ _ ho'
      exact ⟨rfl, rfl, he, hq⟩
    · split at h
      · cases h
      · cases h
        exact ⟨rfl, rfl, he, hq⟩
    · cases h

/-- The parts of a successful evaluation. -/
theorem evaluate_ok {u : StageUnits} {svc : Service} {speed : ℚ} {m m' : Modifier} {s : Stream}
    {rates : Option (List ℚ)} {others : Option (List Stream)} {r : StageResult}
    (h : u.evaluate svc speed m s rates others = .ok (r, m')) :
    u.prepare svc rates others s = .ok r.inlet ∧
    m.addRate (u.machine.minRate speed) (u.machine.maxRate speed) r.inlet = .ok (r.inletAsv, m') ∧
    ¬ (speed < u.machine.minSpeed ∨ u.machine.maxSpeed < speed) ∧
    ∃ p, u.machine.compress speed r.inlet.volRate r.inletAsv = .ok (r.outletAsv, p) ∧
      m'.removeRate r.outletAsv = .ok r.outlet ∧ r.head = p.head / 1000 ∧ r.eff = p.eff ∧
      r.enthalpy = p.head / p.eff / 1000 ∧ r.power = powerMW (p.head / p.eff) r.inletAsv.mass ∧
      r.area = p.area ∧ r.valid = p.valid := by
  unfold StageUnits.evaluate at h
  obtain ⟨inlet, h1, h⟩ := C48.bind_ok h
  obtain ⟨⟨asv, m1⟩, h2, h⟩ := C48.bind_ok h
  simp only at h
  split at h
  · cases h
  · rename_i hs
    obtain ⟨⟨out, p⟩, h3, h⟩ := C48.bind_ok h
    obtain ⟨o, h4, h⟩ := C48.bind_ok h
    cases h
    exact ⟨h1, h2, hs, p, h3, h4, rfl, rfl, rfl, rfl, rfl, rfl⟩

theorem withMass_ok {s o : Stream} {x : ℚ} (h : s.withMass x = .ok o) :
    o.model = s.model ∧ o.props = s.props ∧ o.mass = x ∧ 0 ≤ x := by
  obtain ⟨rfl, h0⟩ := C41.make_ok _ _ _ _ h
  exact ⟨rfl, rfl, rfl, h0⟩

/-- **Capacity.** A stage is within capacity if and only if the machine finds its point inside the chart or calls it valid
(which it does for points that recirculation brings into the chart). -/
theorem C66_capacity (u : StageUnits) (svc : Service) (speed : ℚ) (m m' : Modifier) (s : Stream)
    (rates : Option (List ℚ)) (others : Option (List Stream)) (r : StageResult)
    (h : u.evaluate svc speed m s rates others = .ok (r, m')) :
    ∃ o p, u.machine.compress speed r.inlet.volRate r.inletAsv = .ok (o, p) ∧
      (r.within = true ↔ p.area = .internal ∨ p.valid = true) := by
  obtain ⟨-, -, -, p, h3, -, -, -, -, -, e1, e2⟩ := evaluate_ok h
  refine ⟨_, p, h3, ?_⟩
  simp [StageResult.within, e1, e2]

/-- **What goes round stays in the stage.** The recirculated flow is added before and taken away after the machine: the
stage delivers the mass rate that enters the machine without recirculation, and the machine compresses at least that
much of the same gas if nothing negative has been asked for. -/
theorem C66_net (u : StageUnits) (svc : Service) (speed : ℚ) (ops : List Op) (s : Stream)
    (rates : Option (List ℚ)) (others : Option (List Stream)) (r : StageResult) (m' : Modifier)
    (h : u.evaluate svc speed (run ops) s rates others = .ok (r, m')) (hd : 0 < r.inlet.props.density) :
    r.outlet.mass = r.inlet.mass ∧ r.outletAsv.mass = r.inletAsv.mass ∧
    r.inletAsv.props = r.inlet.props ∧ r.outlet.props = r.outletAsv.props ∧
    r.inletAsv.model = r.inlet.model ∧ r.outlet.model = r.inlet.model ∧
    r.inletAsv.volRate = gross (setting ops) r.inlet.volRate r.inlet.props.density (u.machine.minRate speed)
      (u.machine.maxRate speed) ∧
    u.machine.minRate speed ≤ r.inletAsv.volRate ∧
    (r.inlet.volRate ≤ wanted (setting ops) r.inlet.volRate r.inlet.props.density (u.machine.maxRate speed) →
      r.inlet.mass ≤ r.inletAsv.mass) := by
  obtain ⟨-, h2, -, p, h3, h4, -⟩ := evaluate_ok h
  obtain ⟨c1, c2, -⟩ := compress_mass h3
  obtain ⟨w1, w2, w3, -⟩ := withMass_ok h4
  rw [addRate_eq _ _ (C66_setting ops) _ _ _ hd] at h2
  have hne : r.inlet.props.density ≠ 0 := ne_of_gt hd
  cases hmk : Stream.make r.inlet.model r.inlet.props (gross (setting ops) r.inlet.volRate r.inlet.props.density
      (u.machine.minRate speed) (u.machine.maxRate speed) * r.inlet.props.density) with
  | error e => rw [hmk] at h2; cases h2
  | ok q =>
    rw [hmk] at h2
    simp only [Except.map, Except.ok.injEq, Prod.mk.injEq] at h2
    obtain ⟨hq, hm'⟩ := h2
    obtain ⟨hq', -⟩ := C41.make_ok _ _ _ _ hmk
    rw [hq] at hq'
    have hmass : r.inletAsv.mass = gross (setting ops) r.inlet.volRate r.inlet.props.density
      (u.machine.minRate speed) (u.machine.maxRate speed) * r.inlet.props.density := by rw [hq']
    have hprops : r.inletAsv.props = r.inlet.props := by rw [hq']
    have hmodel : r.inletAsv.model = r.inlet.model := by rw [hq']
    have hvol : r.inletAsv.volRate = gross (setting ops) r.inlet.volRate r.inlet.props.density (u.machine.minRate speed)
      (u.machine.maxRate speed) := by
      unfold Stream.volRate
      rw [hmass, hprops]
      field_simp
      rfl
    refine ⟨?_, c1, hprops, w2, hmodel, by rw [w1, c2, hmodel], hvol, ?_, ?_⟩
    · rw [w3, c1, hmass, ← hm']
      ring
    · rw [hvol]; exact le_max_left _ _
    · intro hw
      rw [hmass]
      have : r.inlet.volRate ≤ gross (setting ops) r.inlet.volRate r.inlet.props.density (u.machine.minRate speed)
        (u.machine.maxRate speed) := le_trans hw (le_max_right _ _)
      calc r.inlet.mass = r.inlet.volRate * r.inlet.props.density := by unfold Stream.volRate; field_simp
        _ ≤ _ := mul_le_mul_of_nonneg_right this hd.le

/-- **Power.** The power of a stage is the enthalpy change times everything that goes through the machine. It splits
into the power for what the stage delivers and the reported loss by recirculation, and the loss is not negative when
nothing negative is recirculated. -/
theorem C66_power (u : StageUnits) (svc : Service) (speed : ℚ) (ops : List Op) (s : Stream)
    (rates : Option (List ℚ)) (others : Option (List Stream)) (r : StageResult) (m' : Modifier)
    (h : u.evaluate svc speed (run ops) s rates others = .ok (r, m')) (hd : 0 < r.inlet.props.density) :
    r.power = power r.enthalpy r.inletAsv.mass ∧ r.power = power r.enthalpy r.inlet.mass + r.loss ∧
    r.enthalpy * r.eff = r.head ∧ r.eff ≠ 0 ∧
    (0 ≤ r.enthalpy →
      r.inlet.volRate ≤ wanted (setting ops) r.inlet.volRate r.inlet.props.density (u.machine.maxRate speed) →
      0 ≤ r.loss ∧ power r.enthalpy r.inlet.mass ≤ r.power) := by
  obtain ⟨-, -, -, p, h3, -, e1, e2, e3, e4, -⟩ := evaluate_ok h
  obtain ⟨-, -, he, -⟩ := compress_mass h3
  have hnet := (C66_net u svc speed ops s rates others r m' h hd).2.2.2.2.2.2.2.2
  have hp : r.power = power r.enthalpy r.inletAsv.mass := by
    rw [e4, e3]; unfold powerMW power; ring
  have hl : r.power = power r.enthalpy r.inlet.mass + r.loss := by
    rw [hp]; unfold StageResult.loss power; ring
  refine ⟨hp, hl, ?_, by rw [e2]; exact he, ?_⟩
  · rw [e1, e2, e3]; field_simp
  · intro hen hw
    have h0 : 0 ≤ r.loss := by
      unfold StageResult.loss
      exact mul_nonneg (mul_nonneg (sub_nonneg.2 (hnet hw)) hen) (by norm_num)
    exact ⟨h0, by linarith⟩

/-- **No memory.** An evaluation depends on the setting of the rate modifier only, not on the flow it added the last
time. -/
theorem C66_stateless (u : StageUnits) (svc : Service) (speed a b : ℚ) (mass fraction : Option ℚ) (s : Stream)
    (rates : Option (List ℚ)) (others : Option (List Stream)) :
    u.evaluate svc speed ⟨a, mass, fraction⟩ s rates others = u.evaluate svc speed ⟨b, mass, fraction⟩ s rates others := by
  unfold StageUnits.evaluate
  cases u.prepare svc rates others s with
  | error e => rfl
  | ok t =>
    simp only [Bind.bind, Except.bind]
    rfl

/-! ## Splitting and mixing ahead of the machine -/

theorem mapM_make {m : FluidModel} {p : Props} {k : ℚ → ℚ} :
    ∀ {rs : List ℚ} {out : List Stream}, (rs.mapM fun r => Stream.make m p (k r)) = .ok out →
      out = rs.map (fun r => ⟨m, p, k r⟩) ∧ ∀ r ∈ rs, 0 ≤ k r := by
  intro rs
  induction rs with
  | nil => intro out h; cases h; exact ⟨rfl, by simp⟩
  | cons r rs ih =>
    intro out h
    rw [List.mapM_cons] at h
    obtain ⟨y, hy, h⟩ := C48.bind_ok h
    obtain ⟨ys, hys, h⟩ := C48.bind_ok h
    cases h
    obtain ⟨rfl, h0⟩ := C41.make_ok _ _ _ _ hy
    obtain ⟨rfl, h1⟩ := ih hys
    exact ⟨rfl, by simpa using ⟨h0, h1⟩⟩

/-- **Splitter.** With offtakes that do not exceed the flow, every offtake gets its standard rate and the rest goes on;
with larger offtakes nothing goes on and the flow is shared in proportion. In both cases no mass is lost and all parts
are the same fluid in the same condition. -/
theorem C66_split (outputs : ℕ) (rates : List ℚ) (s : Stream) (parts : List Stream) (hsd : 0 < s.props.stdDensity)
    (h : legacySplit outputs (some rates) s = .ok parts) :
    (parts.map (·.mass)).sum = s.mass ∧ (∀ p ∈ parts, p.model = s.model ∧ p.props = s.props) ∧
    parts.length = rates.length + 1 ∧ outputs - 1 = rates.length ∧
    (rates.sum ≤ s.stdRate → parts.map (·.stdRate) = rates ++ [s.stdRate - rates.sum]) ∧
    (s.stdRate ≤ rates.sum → parts.getLast?.map (·.mass) = some 0) := by
  have hne : s.props.stdDensity ≠ 0 := ne_of_gt hsd
  unfold legacySplit at h
  simp only [Option.getD_some] at h
  split at h
  · cases h
  rename_i hlen
  generalize hlast : (if s.stdRate - rates.sum < 0 then 0 else s.stdRate - rates.sum) = last at h
  split at h
  · cases h
  rename_i hsum
  obtain ⟨rfl, -⟩ := mapM_make h
  have hT : (rates ++ [last]).sum = rates.sum + last := by simp
  rw [hT] at hsum ⊢
  have hmapsum : ∀ (T : ℚ) (l : List ℚ), (l.map fun r => s.mass * (r / T)).sum = s.mass * (l.sum / T) := by
    intro T l
    induction l with
    | nil => simp
    | cons a l ih => simp only [List.map_cons, List.sum_cons, ih]; ring
  refine ⟨?_, ?_, ?_, ?_, ?_, ?_⟩
  · rw [List.map_map]
    change ((rates ++ [last]).map fun r => s.mass * (r / (rates.sum + last))).sum = s.mass
    rw [hmapsum, hT, div_self hsum, mul_one]
  · intro p hp
    obtain ⟨r, -, rfl⟩ := List.mem_map.1 hp
    exact ⟨rfl, rfl⟩
  · simp
  · push Not at hlen; exact hlen.symm
  · intro hle
    have hl : last = s.stdRate - rates.sum := by rw [← hlast, if_neg (by linarith)]
    have hTs : rates.sum + last = s.stdRate := by rw [hl]; ring
    rw [hTs] at hsum ⊢
    have hcore : ∀ r : ℚ, Stream.stdRate ⟨s.model, s.props, s.mass * (r / s.stdRate)⟩ = r := by
      intro r
      have hm0 : s.mass ≠ 0 := by
        intro h0; apply hsum; unfold Stream.stdRate; rw [h0]; simp
      unfold Stream.stdRate
      simp only
      field_simp
    rw [List.map_map]
    have : ((fun x : Stream => x.stdRate) ∘ fun r => (⟨s.model, s.props, s.mass * (r / s.stdRate)⟩ : Stream)) = id := by
      funext r; exact hcore r
    rw [this, List.map_id, hl]
  · intro hge
    have hl : last = 0 := by
      rw [← hlast]
      split
      · rfl
      · linarith
    rw [List.map_append, List.map_cons, List.map_nil, List.getLast?_concat, hl]
    simp

/-- **Mixer.** What leaves the mixer is everything that enters it, at the lowest pressure; without any flow the stage
keeps its own (empty) stream. A wrong number of streams is refused. -/
theorem C66_mix (svc : Service) (inputs : ℕ) (s : Stream) (others : List Stream) :
    (inputs ≠ others.length + 1 → legacyMix svc inputs s others = .error .programming) ∧
    (∀ o, legacyMix svc inputs s others = .ok o →
      o.mass = s.mass + (others.map (·.mass)).sum ∨ (s.mass + (others.map (·.mass)).sum = 0 ∧ o = s)) := by
  constructor
  · intro h; unfold legacyMix; rw [if_pos h]
  · intro o h
    unfold legacyMix at h
    split at h
    · cases h
    · split at h
      · rename_i h0
        cases h
        right
        rw [List.map_cons, List.sum_cons] at h0
        exact ⟨h0, rfl⟩
      · left
        unfold mixStreams at h
        simp only at h
        split at h
        · cases h
        · split at h
          · cases h
          · obtain ⟨_, -, h⟩ := C48.bind_ok h
            obtain ⟨_, -, h⟩ := C48.bind_ok h
            obtain ⟨_, -, h⟩ := C48.bind_ok h
            obtain ⟨_, -, h⟩ := C48.bind_ok h
            obtain ⟨rfl, -⟩ := C41.make_ok _ _ _ _ h
            simp

/-- What is assumed of a PH flash in addition: the requested pressure and the density at standard conditions of the
fluid. -/
structure LawfulH (svc : Service) : Prop extends Lawful svc where
  pressureH : ∀ m p h g r, svc.flashPH m p h g = .ok r → r.pressure = p
  densityH : ∀ m p h g r, svc.flashPH m p h g = .ok r → r.stdDensity = svc.stdDensity m

/-- Mass rate that leaves the splitter towards the machine. -/
def onward (s : Stream) (splitter : Option ℕ) (rates : List ℚ) : ℚ :=
  match splitter with
  | none => s.mass
  | some _ => max 0 (s.stdRate - rates.sum) * s.props.stdDensity / 24

/-- Mass rate that enters through the mixer. -/
def entering (mixer : Option ℕ) (others : List Stream) : ℚ :=
  match mixer with
  | none => 0
  | some _ => (others.map (·.mass)).sum

/-- **Into the machine.** Ahead of the machine, without a scrubber, the stage takes out the offtakes, adds the other
streams, and cools: the mass rate is the balance of these, the temperature is the required one, and without mixer the
pressure is reduced by the pressure drop exactly. -/
theorem C66_inlet (u : StageUnits) (svc : Service) (hs : LawfulH svc) (rates : List ℚ) (others : List Stream) (s o : Stream)
    (hu : u.liquidRemover = false) (hst : Standard svc s) (h0 : 0 ≤ s.mass)
    (hot : ∀ t ∈ others, 0 ≤ t.mass)
    (hle : u.splitter.isSome → rates.sum ≤ s.stdRate)
    (h : u.prepare svc (some rates) (some others) s = .ok o) :
    o.mass = onward s u.splitter rates + entering u.mixer others ∧ o.props.temperature = u.temperature ∧
    Standard svc o ∧ (u.mixer = none → o.model = s.model ∧
      o.props.pressure = s.props.pressure - max (u.choke.getD 0) 0) := by
  have hsd : 0 < s.props.stdDensity := by rw [hst]; exact hs.positive _
  have hsne : s.props.stdDensity ≠ 0 := ne_of_gt hsd
  unfold StageUnits.prepare at h
  obtain ⟨a, ha, h⟩ := C48.bind_ok h
  obtain ⟨b, hb, h⟩ := C48.bind_ok h
  obtain ⟨c, hc, h⟩ := C48.bind_ok h
  obtain ⟨d, hd, h⟩ := C48.bind_ok h
  rw [hu] at h
  simp only [Bool.false_eq_true, if_false, Except.ok.injEq] at h
  subst h
  -- the splitter
  unfold StageUnits.split at ha
  unfold StageUnits.mix at hb
  unfold StageUnits.throttle at hc
  have A : a.mass = onward s u.splitter rates ∧ a.model = s.model ∧ a.props = s.props ∧ 0 ≤ a.mass := by
    cases hsp : u.splitter with
    | none => rw [hsp] at ha; cases ha; exact ⟨rfl, rfl, rfl, h0⟩
    | some n =>
      rw [hsp] at ha
      obtain ⟨parts, hp, ha⟩ := C48.bind_ok ha
      obtain ⟨-, g2, -, -, g5, -⟩ := C66_split n rates s parts hsd hp
      have hle' := hle (by rw [hsp]; rfl)
      cases hlast : parts.getLast? with
      | none => rw [hlast] at ha; cases ha
      | some q =>
        rw [hlast] at ha
        cases ha
        have hmem := List.mem_of_getLast? hlast
        obtain ⟨q1, q2⟩ := g2 _ hmem
        have hq : a.stdRate = s.stdRate - rates.sum := by
          have := congrArg List.getLast? (g5 hle')
          rw [List.getLast?_map, hlast, List.getLast?_concat] at this
          simpa using this
        have hm : a.mass = (s.stdRate - rates.sum) * s.props.stdDensity / 24 := by
          rw [← hq]; unfold Stream.stdRate; rw [q2]; field_simp
        refine ⟨?_, q1, q2, ?_⟩
        · rw [hm]; unfold onward; rw [max_eq_right (by linarith)]
        · rw [hm]; exact div_nonneg (mul_nonneg (by linarith) hsd.le) (by norm_num)
  obtain ⟨a1, a2, a3, a4⟩ := A
  have hsta : Standard svc a := by unfold Standard; rw [a2, a3]; exact hst
  -- the mixer
  have B : b.mass = onward s u.splitter rates + entering u.mixer others ∧ Standard svc b ∧
      (u.mixer = none → b.model = s.model ∧ b.props = s.props) := by
    cases hmx : u.mixer with
    | none =>
      rw [hmx] at hb; cases hb
      exact ⟨by rw [a1]; unfold entering; ring, hsta, fun _ => ⟨a2, a3⟩⟩
    | some n =>
      rw [hmx] at hb
      simp only at hb
      have hnn : 0 ≤ (others.map (·.mass)).sum := List.sum_nonneg (by
        intro x hx; obtain ⟨t, ht, rfl⟩ := List.mem_map.1 hx; exact hot t ht)
      refine ⟨?_, ?_, fun hx => by cases hx⟩
      · rcases (C66_mix svc n a others).2 b hb with h1 | ⟨h1, h2⟩
        · rw [h1, a1]; rfl
        · rw [h2, a1]
          unfold entering
          simp only
          linarith
      · unfold legacyMix at hb
        split at hb
        · cases hb
        · split at hb
          · cases hb; exact hsta
          · unfold mixStreams at hb
            simp only at hb
            split at hb
            · cases hb
            · split at hb
              · cases hb
              · obtain ⟨_, -, hb⟩ := C48.bind_ok hb
                obtain ⟨_, -, hb⟩ := C48.bind_ok hb
                obtain ⟨_, -, hb⟩ := C48.bind_ok hb
                obtain ⟨_, hf, hb⟩ := C48.bind_ok hb
                obtain ⟨rfl, -⟩ := C41.make_ok _ _ _ _ hb
                exact hs.densityH _ _ _ _ _ hf
  obtain ⟨b1, b2, b3⟩ := B
  -- the choke
  have C : c.mass = b.mass ∧ Standard svc c ∧ c.model = b.model ∧
      c.props.pressure = b.props.pressure - max (u.choke.getD 0) 0 := by
    cases hch : u.choke with
    | none => rw [hch] at hc; cases hc; exact ⟨rfl, b2, rfl, by simp⟩
    | some dp =>
      rw [hch] at hc
      simp only at hc
      obtain ⟨c1, -, c3, -, c5, -⟩ := C40_choke svc hs.toLawful dp b c hc
      refine ⟨c5 b2, ?_, c3, c1⟩
      unfold choke at hc
      split at hc
      · simp only at hc
        split at hc
        · cases hc
        · obtain ⟨g1, g2, g3, -⟩ := fromStdRate_ok _ _ _ _ _ _ hc
          unfold Standard
          rw [hs.density _ _ _ _ g1, c3]
      · cases hc; exact b2
  obtain ⟨c1, c2, c3, c4⟩ := C
  -- the cooler
  unfold setTemperature at hd
  split at hd
  · obtain ⟨r, hr', hd⟩ := C48.bind_ok hd
    obtain ⟨rfl, -⟩ := C41.make_ok _ _ _ _ hd
    refine ⟨by simp only; rw [c1, b1], hs.temperature _ _ _ _ hr', hs.density _ _ _ _ hr', fun hm => ?_⟩
    obtain ⟨k1, k2⟩ := b3 hm
    simp only
    rw [hs.pressure _ _ _ _ hr', c4, k2, c3, k1]
    exact ⟨rfl, rfl⟩
  · rename_i ht
    push Not at ht
    cases hd
    refine ⟨by rw [c1, b1], ht, c2, fun hm => ?_⟩
    obtain ⟨k1, k2⟩ := b3 hm
    rw [c4, k2, c3, k1]
    exact ⟨rfl, rfl⟩

/-- **No flow and nothing to take out.** A splitter ahead of a stage without any flow divides by zero, although such a
stage is allowed to run on recirculation alone. -/
theorem C66_empty_split (outputs : ℕ) (s : Stream) (h : s.mass = 0) : legacySplit outputs none s = .error .value := by
  unfold legacySplit
  have h0 : s.stdRate = 0 := by unfold Stream.stdRate; rw [h]; simp
  simp [h0]

/-! ## Examples -/

def gas : Stream := ⟨⟨.SRK, fun _ => 1⟩, ⟨300, 50, 40, 0, 1, 1 / 50, 4 / 5⟩, 40000⟩

/-- A machine that runs from 2000 to 3000 m³/h at any speed. -/
def machine : Machine where
  minSpeed := 8000
  maxSpeed := 10000
  minRate := fun _ => 2000
  maxRate := fun _ => 3000
  point := fun _ rate _ => .ok ⟨60000, 3 / 4, decide (rate ≤ 3000), .belowFlow⟩
  outlet := fun _ _ s => .ok { s.props with pressure := 2 * s.props.pressure, density := 2 * s.props.density }

def stage : StageUnits := ⟨none, none, none, 300, false, machine⟩

/-- Half of the free capacity of 1000 m³/h that enter: 2000 m³/h through the machine; the stage delivers what entered. -/
example : (run [.setMass 5, .setFraction (1 / 2)]).addRate 2000 3000 gas =
    .ok ({ gas with mass := 80000 }, ⟨40000, none, some (1 / 2)⟩) := by
  rw [addRate_eq _ (.fraction (1 / 2)) ⟨rfl, rfl⟩ _ _ _ (by norm_num [gas])]
  norm_num [gross, wanted, gas, Stream.volRate, Stream.make, run, Except.map, Modifier.setFraction, Modifier.setMass,
    Modifier.fresh]

/-- Without any setting the flow is raised to the least flow of 2000 m³/h; half of the power is lost. -/
example : (stage.evaluate ideal 9000 (run []) gas).toOption.map
      (fun x => (x.1.outlet.mass, x.1.inletAsv.mass, x.1.outlet.props.pressure, x.1.power, x.1.loss)) =
    some (40000, 80000, 100, 16 / 9, 8 / 9) := by decide +kernel

/-- The point is valid although the flow before recirculation is below the least flow: within capacity. -/
example : (stage.evaluate ideal 9000 (run []) gas).toOption.map (fun x => (x.1.within, x.1.area, x.1.valid)) =
    some (true, .belowFlow, true) := by decide +kernel

/-- 1200000 Sm³/d enter, 300000 are taken out, 900000 go on. -/
example : (legacySplit 2 (some [300000]) gas).toOption.map (·.map fun p => (p.stdRate, p.mass)) =
    some [(300000, 10000), (900000, 30000)] := by decide +kernel

end Verif.C66
