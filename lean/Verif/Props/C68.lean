import Verif.Props.C67
import Mathlib.Tactic.FieldSimp
import Mathlib.Algebra.Order.Field.Basic

/-!
# C68: what the status and the failure status of a compressor train say
-/

namespace Verif.C68
open Verif.Train Verif.Time Verif.Charts

variable {σ : Type}

/-! ## Specification -/

/-- Not more than one in a thousand above. -/
def NotAbove (a b : ℚ) : Prop := a ≤ b * (1 + 1 / 1000)

instance (a b : ℚ) : Decidable (NotAbove a b) := inferInstanceAs (Decidable (a ≤ b * (1 + 1 / 1000)))

/-- Equal up to one in a thousand. -/
def Near (a b : ℚ) : Prop := NotAbove a b ∧ NotAbove b a

/-- The intermediate pressure is right, if there is a target for it and a pressure. -/
def Inter (target actual : Option ℚ) (c : ℚ → ℚ → Prop) : Prop := ∀ t p, target = some t → actual = some p → c p t

/-! ## Pressures -/

theorem above_iff {a b : ℚ} (hb : 0 < b) : a / b - 1 > tol ↔ ¬ NotAbove a b := by
  unfold NotAbove tol
  rw [gt_iff_lt, lt_sub_iff_add_lt, lt_div_iff₀ hb, not_le]
  constructor <;> intro h <;> linarith

/-- **Status.** Let all pressures be positive. The status names the first of these that applies, and `met` if none does:
the first stage sucks at more than the train does, the discharge pressure is above target, below target, the intermediate
pressure is above target, below target. -/
theorem C68_status (inp : Input) (ts ss d : ℚ) (i : Option ℚ) (hts : 0 < ts) (hd : 0 < d) (hi : ∀ p, i = some p → 0 < p)
    (ht : 0 < inp.discharge) (hit : ∀ t, inp.interstage = some t → 0 < t) :
    (comparePressures inp ts ss d i = .aboveSuction ↔ ¬ NotAbove ss ts) ∧
    (comparePressures inp ts ss d i = .aboveDischarge ↔ NotAbove ss ts ∧ ¬ NotAbove d inp.discharge) ∧
    (comparePressures inp ts ss d i = .belowDischarge ↔ NotAbove ss ts ∧ ¬ NotAbove inp.discharge d) ∧
    (comparePressures inp ts ss d i = .aboveIntermediate ↔ NotAbove ss ts ∧ Near d inp.discharge ∧
      ∃ t p, inp.interstage = some t ∧ i = some p ∧ ¬ NotAbove p t) ∧
    (comparePressures inp ts ss d i = .belowIntermediate ↔ NotAbove ss ts ∧ Near d inp.discharge ∧
      ∃ t p, inp.interstage = some t ∧ i = some p ∧ ¬ NotAbove t p) ∧
    (comparePressures inp ts ss d i = .met ↔ NotAbove ss ts ∧ Near d inp.discharge ∧ Inter inp.interstage i Near) ∧
    comparePressures inp ts ss d i ≠ .belowSuction ∧ comparePressures inp ts ss d i ≠ .notCalculated := by
  -- both deviations at once are impossible
  have ex : ∀ a b : ℚ, 0 < a → 0 < b → ¬ NotAbove a b → NotAbove b a := by
    intro a b ha hb h
    unfold NotAbove at *
    linarith
  unfold comparePressures
  have r : ∀ b, 0 < b → ∀ a, (a / b - 1 > tol) = ¬ NotAbove a b := fun b hb a => propext (above_iff hb)
  simp only [r ts hts, r _ ht, r d hd]
  by_cases h1 : NotAbove ss ts
  · simp only [h1, not_true_eq_false, if_false, true_and]
    by_cases h2 : NotAbove d inp.discharge
    · by_cases h3 : NotAbove inp.discharge d
      · have hn : Near d inp.discharge := ⟨h2, h3⟩
        simp only [h2, h3, hn, not_true_eq_false, if_false, true_and]
        cases hI : inp.interstage with
        | none => simp [Inter]
        | some t =>
          cases i with
          | none => simp [Inter]
          | some p =>
            have hp := hi p rfl
            have htt := hit t hI
            simp only [r t htt, r p hp]
            by_cases h4 : NotAbove p t
            · by_cases h5 : NotAbove t p
              · simp [h4, h5, Inter, Near]
              · simp [h4, h5, Inter, Near]
            · have := ex p t hp htt h4
              simp [h4, this, Inter, Near]
      · simp [h2, h3, Near]
    · have := ex d inp.discharge hd ht h2
      simp [h2, this, Near]
  · simp [h1]

/-- **Status of a run.** A train that is run at a speed has the status `met` if and only if the pressure of its last stage is
near the target; the intermediate pressure is not looked at. -/
theorem C68_run (p : Plant σ) (speed : ℚ) (mods : List Mod) (inp : Input) (first last : Stg σ)
    (hf : (p.calc speed mods inp).stages.head? = some first) (hl : (p.calc speed mods inp).stages.getLast? = some last)
    (h1 : 0 < first.pin) (h2 : 0 < last.pout) (ht : 0 < inp.discharge) (hit : ∀ t, inp.interstage = some t → 0 < t) :
    (p.calc speed mods inp).pout = last.pout ∧
    ((p.calc speed mods inp).status = .met ↔ Near last.pout inp.discharge) ∧
    ((p.calc speed mods inp).status = .aboveDischarge ↔ ¬ NotAbove last.pout inp.discharge) ∧
    ((p.calc speed mods inp).status = .belowDischarge ↔ ¬ NotAbove inp.discharge last.pout) := by
  have hs : (p.calc speed mods inp).status = comparePressures inp first.pin first.pin last.pout none := by
    have : (p.calc speed mods inp).status = checkStages inp (p.calc speed mods inp).stages := rfl
    rw [this, checkStages, hf, hl]
  have hp : (p.calc speed mods inp).pout = (((p.calc speed mods inp).stages.getLast?).map (·.pout)).getD inp.suction := rfl
  have hn : NotAbove first.pin first.pin := by unfold NotAbove; linarith
  obtain ⟨-, a, b, -, -, c, -⟩ := C68_status inp first.pin first.pin last.pout none h1 h2 (by simp) ht hit
  rw [hs, hp, hl]
  refine ⟨rfl, ?_, ?_, ?_⟩
  · rw [c]; simp [hn, Inter]
  · rw [a]; simp [hn]
  · rw [b]; simp [hn]

/-- **Lookup of the intermediate pressure.** The check of a train result succeeds if and only if the result has a stage and,
when the train has a stage with an interstage pressure, as many stages as its number. -/
theorem C68_check (number : Option ℕ) (inp : Input) (r : Res σ) :
    (∃ s, checkTrain number inp r = .ok s) ↔ r.stages ≠ [] ∧ ∀ n, number = some n → n ≤ r.stages.length := by
  unfold checkTrain
  cases hs : r.stages with
  | nil => simp
  | cons a l =>
    simp only [List.head?_cons]
    cases number with
    | none => simp
    | some n =>
      rcases Nat.eq_zero_or_pos n with rfl | hn
      · have : ((a :: l).getLast?).isSome := by simp
        obtain ⟨w, hw⟩ := Option.isSome_iff_exists.mp this
        simp [hw]
      · simp only [show n ≠ 0 by omega, if_false]
        by_cases h : n ≤ (a :: l).length
        · have : (a :: l)[n - 1]? = some ((a :: l)[n - 1]'(by omega)) := List.getElem?_eq_getElem (by omega)
          simp only [this]
          simp only [ne_eq, reduceCtorEq, not_false_eq_true, Option.some.injEq, forall_eq', true_and]
          exact ⟨fun _ => h, fun _ => ⟨_, rfl⟩⟩
        · have : (a :: l)[n - 1]? = none := List.getElem?_eq_none (by omega)
          simp only [this]
          simp only [ne_eq, reduceCtorEq, not_false_eq_true, Option.some.injEq, forall_eq', true_and, h, exists_false]

/-- What the check of a train result compares. -/
theorem C68_check_value (n : ℕ) (inp : Input) (r : Res σ) (first at_ : Stg σ) (hf : r.stages.head? = some first)
    (hn : 1 ≤ n) (ha : r.stages[n - 1]? = some at_) :
    checkTrain (some n) inp r = .ok (comparePressures inp r.pin first.pin r.pout (some at_.pout)) ∧
    checkTrain none inp r = .ok (comparePressures inp r.pin first.pin r.pout none) := by
  unfold checkTrain
  rw [hf]
  simp [show n ≠ 0 by omega, ha]

/-! ## Failures -/

/-- A flag that says the flow is too high. -/
def High (a : Area) : Prop := a = .aboveFlow ∨ a = .belowSpeedAboveFlow

/-- A flag that says the flow is too low. -/
def Low (a : Area) : Prop := a = .belowFlow ∨ a = .belowSpeedBelowFlow

/-- A stage is out of capacity. -/
def Out (s : Stg σ) : Prop := s.area ≠ .internal ∧ s.valid = false

theorem within_iff (s : Stg σ) : s.within = false ↔ Out s := by
  unfold Stg.within Out
  simp

/-- The first stage out of capacity for its flow decides. -/
theorem flow_spec (rs : List (Stg σ)) :
    (flowFailure rs = none ↔ ∀ s ∈ rs, Out s → ¬ High s.area ∧ ¬ Low s.area) ∧
    (flowFailure rs = some .aboveFlow ↔ ∃ a s b, rs = a ++ s :: b ∧ Out s ∧ High s.area ∧
      ∀ t ∈ a, Out t → ¬ High t.area ∧ ¬ Low t.area) ∧
    (flowFailure rs = some .belowFlow ↔ ∃ a s b, rs = a ++ s :: b ∧ Out s ∧ Low s.area ∧
      ∀ t ∈ a, Out t → ¬ High t.area ∧ ¬ Low t.area) ∧
    (flowFailure rs = none ∨ flowFailure rs = some .aboveFlow ∨ flowFailure rs = some .belowFlow) := by
  induction rs with
  | nil => simp [flowFailure]
  | cons x rest ih =>
    obtain ⟨i1, i2, i3, i4⟩ := ih
    have split : ∀ (Q : Stg σ → Prop), (∃ a s b, x :: rest = a ++ s :: b ∧ Out s ∧ Q s ∧
        ∀ t ∈ a, Out t → ¬ High t.area ∧ ¬ Low t.area) ↔
        (Out x ∧ Q x) ∨ ((Out x → ¬ High x.area ∧ ¬ Low x.area) ∧ ∃ a s b, rest = a ++ s :: b ∧ Out s ∧ Q s ∧
          ∀ t ∈ a, Out t → ¬ High t.area ∧ ¬ Low t.area) := by
      intro Q
      constructor
      · rintro ⟨a, s, b, e, h1, h2, h3⟩
        cases a with
        | nil =>
          simp only [List.nil_append, List.cons.injEq] at e
          obtain ⟨rfl, rfl⟩ := e
          exact Or.inl ⟨h1, h2⟩
        | cons y a =>
          simp only [List.cons_append, List.cons.injEq] at e
          obtain ⟨rfl, rfl⟩ := e
          exact Or.inr ⟨h3 x (by simp), a, s, b, rfl, h1, h2, fun t ht => h3 t (by simp [ht])⟩
      · rintro (⟨h1, h2⟩ | ⟨h0, a, s, b, rfl, h1, h2, h3⟩)
        · exact ⟨[], x, rest, rfl, h1, h2, by simp⟩
        · refine ⟨x :: a, s, b, rfl, h1, h2, ?_⟩
          intro t ht
          rcases List.mem_cons.mp ht with rfl | ht
          · exact h0
          · exact h3 t ht
    rw [split (fun s => High s.area), split (fun s => Low s.area)]
    simp only [List.forall_mem_cons]
    by_cases hw : Out x
    · have hw' : x.within = false := (within_iff x).mpr hw
      unfold flowFailure
      simp only [hw', hw, true_and, true_imp_iff]
      have n1 : High .aboveFlow ∧ High .belowSpeedAboveFlow ∧ Low .belowFlow ∧ Low .belowSpeedBelowFlow := by
        simp [High, Low]
      obtain ⟨n1, n2, n3, n4⟩ := n1
      have n5 : ¬ High .internal ∧ ¬ High .belowFlow ∧ ¬ High .belowSpeed ∧ ¬ High .aboveSpeed ∧
          ¬ High .belowSpeedBelowFlow ∧ ¬ High .noFlow := by simp [High]
      obtain ⟨n5, n6, n7, n8, n9, n10⟩ := n5
      have m5 : ¬ Low .internal ∧ ¬ Low .aboveFlow ∧ ¬ Low .belowSpeed ∧ ¬ Low .aboveSpeed ∧
          ¬ Low .belowSpeedAboveFlow ∧ ¬ Low .noFlow := by simp [Low]
      obtain ⟨m5, m6, m7, m8, m9, m10⟩ := m5
      cases ha : x.area <;>
        simp only [n1, n2, n3, n4, n5, n6, n7, n8, n9, n10, m5, m6, m7, m8, m9, m10, not_true_eq_false,
          not_false_eq_true, and_true, true_and, and_self, false_and, and_false, false_or, or_false, or_true,
          Bool.false_eq_true, if_false, reduceCtorEq, Option.some.injEq] <;>
        exact ⟨i1, i2, i3, i4⟩
    · have hw' : x.within = true := by
        cases h : x.within
        · exact absurd ((within_iff x).mp h) hw
        · rfl
      unfold flowFailure
      simp only [hw', hw, false_and, false_or, false_imp_iff, true_and, if_true]
      exact ⟨i1, i2, i3, i4⟩

/-- **Failure status.** A stage out of capacity because of its flow comes before everything else, and the first such stage
names the failure; then the pressures; then the power. -/
theorem C68_failure (r : Res σ) :
    (r.failure = .aboveFlow ↔ ∃ a s b, r.stages = a ++ s :: b ∧ Out s ∧ High s.area ∧
      ∀ t ∈ a, Out t → ¬ High t.area ∧ ¬ Low t.area) ∧
    (r.failure = .belowFlow ↔ ∃ a s b, r.stages = a ++ s :: b ∧ Out s ∧ Low s.area ∧
      ∀ t ∈ a, Out t → ¬ High t.area ∧ ¬ Low t.area) ∧
    ((∀ s ∈ r.stages, Out s → ¬ High s.area ∧ ¬ Low s.area) →
      (r.failure = .dischargeTooHigh ↔ r.status = .belowDischarge ∨ r.status = .aboveSuction) ∧
      (r.failure = .dischargeTooLow ↔ r.status = .aboveDischarge) ∧
      (r.failure = .suctionTooHigh ↔ r.status = .belowSuction) ∧
      (r.failure = .intermediateTooLow ↔ r.status = .aboveIntermediate) ∧
      (r.failure = .intermediateTooHigh ↔ r.status = .belowIntermediate) ∧
      (r.failure = .abovePower ↔ (r.status = .met ∨ r.status = .notCalculated) ∧ r.abovePower = true) ∧
      (r.failure = .none ↔ (r.status = .met ∨ r.status = .notCalculated) ∧ r.abovePower = false)) := by
  obtain ⟨i1, i2, i3, i4⟩ := flow_spec r.stages
  unfold Res.failure
  rw [← i1, ← i2, ← i3]
  rcases i4 with h | h | h
  · rw [h]
    cases hs : r.status <;> cases hp : r.abovePower <;> simp
  · rw [h]; simp
  · rw [h]; simp

/-- **Valid results.** A result is valid if and only if all stages are within capacity, no pressure is off target, and the
power limit is not exceeded. -/
theorem C68_valid (r : Res σ) :
    r.isValid = true ↔ (∀ s ∈ r.stages, ¬ Out s) ∧ (r.status = .met ∨ r.status = .notCalculated) ∧ r.abovePower = false := by
  obtain ⟨-, -, h⟩ := C68_failure r
  have hw : r.within = true ↔ ∀ s ∈ r.stages, ¬ Out s := by
    unfold Res.within
    rw [List.all_eq_true]
    constructor
    · intro h s hs ho
      have := h s hs
      rw [(within_iff s).mpr ho] at this
      cases this
    · intro h s hs
      cases hc : s.within
      · exact absurd ((within_iff s).mp hc) (h s hs)
      · rfl
  unfold Res.isValid
  rw [Bool.and_eq_true, decide_eq_true_eq, hw]
  constructor
  · rintro ⟨hf, ho⟩
    exact ⟨ho, ((h (fun s hs hx => absurd hx (ho s hs))).2.2.2.2.2.2).mp hf⟩
  · rintro ⟨ho, hr⟩
    exact ⟨((h (fun s hs hx => absurd hx (ho s hs))).2.2.2.2.2.2).mpr hr, ho⟩

/-- **A limit of zero is no limit.** The power limit is exceeded if and only if there is a limit other than zero and the
power is above it. -/
theorem C68_power (p : Plant σ) (speed : ℚ) (mods : List Mod) (inp : Input) :
    ((p.calc speed mods inp).abovePower = true ↔
      ∃ m, p.maxPower = some m ∧ m ≠ 0 ∧ ((p.calc speed mods inp).stages.map (·.power)).sum > m) ∧
    (p.maxPower = some 0 → (p.calc speed mods inp).abovePower = false) := by
  have e : (p.calc speed mods inp).abovePower =
    exceeds p.maxPower ((p.calc speed mods inp).stages.map (·.power)).sum := rfl
  rw [e]
  unfold exceeds
  cases h : p.maxPower with
  | none => simp
  | some m => simp; intro hm; simp [hm]

/-- **The chart area of a train** is that of its first stage with an invalid point. If all points are valid, it is "no flow"
when a stage has that, and the area of the first stage otherwise. -/
theorem C68_area (r : Res σ) :
    (∀ pre s post, r.stages = pre ++ s :: post → (∀ x ∈ pre, x.valid = true) → s.valid = false → r.areaStatus = s.area) ∧
    ((∀ s ∈ r.stages, s.valid = true) → (∃ s ∈ r.stages, s.area = .noFlow) → r.areaStatus = .noFlow) ∧
    ((∀ s ∈ r.stages, s.valid = true) → (∀ s ∈ r.stages, s.area ≠ .noFlow) → ∀ s rest, r.stages = s :: rest →
      r.areaStatus = s.area) := by
  have hf : (∀ s ∈ r.stages, s.valid = true) → r.stages.filter (fun s => !s.valid) = [] := by
    intro h
    rw [List.filter_eq_nil_iff]
    intro s hs
    simp [h s hs]
  refine ⟨?_, ?_, ?_⟩
  · intro pre s post hr hp hs
    have : r.stages.filter (fun s => !s.valid) = s :: post.filter (fun s => !s.valid) := by
      rw [hr, List.filter_append, List.filter_eq_nil_iff.mpr (by intro x hx; simp [hp x hx]), List.nil_append,
        List.filter_cons, if_pos (by simp [hs])]
    unfold Res.areaStatus
    rw [this]
  · rintro h ⟨s, hs, ha⟩
    unfold Res.areaStatus
    rw [hf h]
    simp only
    rw [if_pos (by rw [List.any_eq_true]; exact ⟨s, hs, by simp [ha]⟩)]
  · intro h hn s rest hr
    unfold Res.areaStatus
    rw [hf h]
    simp only
    rw [if_neg, hr]
    rw [List.any_eq_true]
    rintro ⟨x, hx, ha⟩
    exact hn x hx (by simpa using ha)

/-! ## Examples -/

open Verif.C67 in
example : (three.calc 2 [.none, .none, .none] ⟨10, 260, none, [5, 3, 2]⟩).status = .aboveDischarge ∧
    (three.calc 2 [.none, .none, .none] ⟨10, 260, none, [5, 3, 2]⟩).failure = .dischargeTooLow ∧
    (three.calc 2 [.none, .none, .none] ⟨10, 2624 / 10, none, [5, 3, 2]⟩).status = .met ∧
    (three.calc 2 [.none, .none, .none] ⟨10, 2624 / 10, none, [5, 3, 2]⟩).isValid = true ∧
    (three.calc 2 [.none, .none, .none] ⟨10, 260, none, [50, 3, 2]⟩).failure = .aboveFlow := by decide +kernel

open Verif.C67 in
example : checkTrain (some 2) ⟨10, 2624 / 10, some 85, [5, 3, 2]⟩
      (three.calc 2 [.none, .none, .none] ⟨10, 2624 / 10, some 85, [5, 3, 2]⟩) = .ok .aboveIntermediate ∧
    checkTrain (some 4) ⟨10, 2624 / 10, some 85, [5, 3, 2]⟩
      (three.calc 2 [.none, .none, .none] ⟨10, 2624 / 10, some 85, [5, 3, 2]⟩) = .error .indexError := by
  constructor <;> decide +kernel

open Verif.C67 in
/-- The first stage has room, the second one has too much flow. -/
example : ((three.calc 2 [.none, .none, .none] ⟨10, 260, none, [18, 3, 2]⟩).stages.map fun s => (s.valid, s.area)) =
      [(true, .internal), (false, .aboveFlow), (true, .internal)] ∧
    (three.calc 2 [.none, .none, .none] ⟨10, 260, none, [18, 3, 2]⟩).areaStatus = .aboveFlow := by decide +kernel

end Verif.C68
