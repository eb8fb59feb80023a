import Verif.Props.C27
import Verif.Props.C68

/-!
# C69: the speed of a compressor train, and independence of time steps
-/

namespace Verif.C69
open Verif.Train Verif.Time Verif.Search Verif.C68

variable {σ : Type}

/-! ## Specification -/

/-- A root finder that stays in its bracket. -/
def Inside (root : Root) : Prop := ∀ lo hi f, lo ≤ hi → lo ≤ root lo hi f ∧ root lo hi f ≤ hi

/-- A speed that all stages of a train can have. -/
def Common (p : Plant σ) (v : ℚ) : Prop := ∀ s ∈ p.stages, s.minSpeed ≤ v ∧ v ≤ s.maxSpeed

/-! ## Range of speeds -/

theorem foldl_max_le (l : List (StageP σ)) (a v : ℚ) :
    l.foldl (fun v t => max v t.minSpeed) a ≤ v ↔ a ≤ v ∧ ∀ s ∈ l, s.minSpeed ≤ v := by
  induction l generalizing a with
  | nil => simp
  | cons s l ih => simp only [List.foldl_cons, ih, max_le_iff, List.forall_mem_cons, and_assoc]

theorem le_foldl_min (l : List (StageP σ)) (a v : ℚ) :
    v ≤ l.foldl (fun v t => min v t.maxSpeed) a ↔ v ≤ a ∧ ∀ s ∈ l, v ≤ s.maxSpeed := by
  induction l generalizing a with
  | nil => simp
  | cons s l ih => simp only [List.foldl_cons, ih, le_min_iff, List.forall_mem_cons, and_assoc]

/-- **Range of speeds.** A train has a speed in its range if and only if all stages can have it. -/
theorem C69_range (p : Plant σ) (hne : p.stages ≠ []) (v : ℚ) :
    (p.minSpeed ≤ v ∧ v ≤ p.maxSpeed) ↔ Common p v := by
  unfold Plant.minSpeed Plant.maxSpeed Common
  cases h : p.stages with
  | nil => exact absurd h hne
  | cons s l =>
    simp only [foldl_max_le, le_foldl_min, List.forall_mem_cons]
    constructor
    · rintro ⟨⟨a, b⟩, c, d⟩
      exact ⟨⟨a, c⟩, fun t ht => ⟨b t ht, d t ht⟩⟩
    · rintro ⟨⟨a, c⟩, h⟩
      exact ⟨⟨a, fun t ht => (h t ht).1⟩, c, fun t ht => (h t ht).2⟩

/-- With positive speeds the bounds are those of the train, narrowed by the bounds that are given. -/
theorem bounds_spec (p : Plant σ) (lower upper : Option ℚ) (h0 : 0 ≤ p.minSpeed) (h1 : ∀ u, upper = some u → 0 < u) :
    (p.speedBounds lower upper).1 = max p.minSpeed (lower.getD p.minSpeed) ∧
    (p.speedBounds lower upper).2 = min p.maxSpeed (upper.getD p.maxSpeed) := by
  unfold Plant.speedBounds
  constructor
  · cases lower with
    | none => simp
    | some l =>
      simp only [Option.getD_some]
      split
      · rename_i h
        rw [max_eq_right (le_of_lt h.2)]
      · rename_i h
        rw [max_eq_left]
        by_contra hc
        push Not at hc
        exact h ⟨by linarith [lt_of_le_of_lt h0 hc] |> fun (x : 0 < l) => ne_of_gt x, hc⟩
  · cases upper with
    | none => simp
    | some u =>
      have := h1 u rfl
      simp only [Option.getD_some]
      split
      · rename_i h
        rw [min_eq_right (le_of_lt h.2)]
      · rename_i h
        rw [min_eq_left]
        by_contra hc
        push Not at hc
        exact h ⟨ne_of_gt this, hc⟩

/-! ## The search -/

/-- **The speed that is found.** Let `a` and `b` be the bounds. The speed lies between them, and is one of these: the
highest, at which the train is out of capacity; the highest, where the pressure is still too low; the lowest speed in
capacity, where the pressure is too high already; what the root finder returns between the lowest speed in capacity and the
highest. The lowest speed in capacity is `a`, or there is a speed out of capacity just below it. -/
theorem C69_search (p : Plant σ) (root : Root) (hroot : Inside root) (mods : List Mod) (inp : Input)
    (lower upper : Option ℚ) (a b : ℚ) (ha : (p.speedBounds lower upper).1 = a) (hb : (p.speedBounds lower upper).2 = b)
    (hab : a ≤ b) :
    let v := p.findSpeed root mods inp lower upper
    let pressure := fun x => (p.calc x mods inp).pout
    let fits := fun x => (p.calc x mods inp).within
    (a ≤ v ∧ v ≤ b) ∧
    ((fits b = false ∧ v = b) ∨
      (fits b = true ∧ ∃ c, a ≤ c ∧ c ≤ b ∧ fits c = true ∧
        (c = a ∨ ∃ d, a ≤ d ∧ d ≤ c ∧ (d = a ∨ fits d = false) ∧ fits a = false ∧
          (c - d ≤ eps * max |c| |d| ∨ c - d = (b - a) / 2 ^ 51)) ∧
        ((v = b ∧ pressure b < inp.discharge) ∨ (v = c ∧ inp.discharge < pressure c) ∨
          (v = root c b (fun x => pressure x - inp.discharge) ∧ pressure c ≤ inp.discharge ∧
            inp.discharge ≤ pressure b)))) := by
  simp only
  unfold Plant.findSpeed
  rw [ha, hb]
  simp only
  by_cases hfb : (p.calc b mods inp).within = true
  · simp only [hfb, Bool.not_true, Bool.false_eq_true, if_false]
    set c := (if (p.calc a mods inp).within = true then a
      else -maximizeX eps 50 (-b) (-a) fun x => (p.calc (-x) mods inp).within) with hc
    have hcs : a ≤ c ∧ c ≤ b ∧ (p.calc c mods inp).within = true ∧
        (c = a ∨ ∃ d, a ≤ d ∧ d ≤ c ∧ (d = a ∨ (p.calc d mods inp).within = false) ∧ (p.calc a mods inp).within = false ∧
          (c - d ≤ eps * max |c| |d| ∨ c - d = (b - a) / 2 ^ 51)) := by
      by_cases hfa : (p.calc a mods inp).within = true
      · rw [if_pos hfa] at hc
        rw [hc]
        exact ⟨le_refl _, hab, hfa, Or.inl rfl⟩
      · rw [if_neg hfa] at hc
        obtain ⟨hi, h1, h2, h3, h4, h5, h6⟩ := Verif.C27.C27_maximize eps 50 (-b) (-a)
          (fun x => (p.calc (-x) mods inp).within) (by linarith) (by unfold eps; norm_num) (by unfold eps; norm_num)
        have hm : maximizeX eps 50 (-b) (-a) (fun x => (p.calc (-x) mods inp).within) = -c := by rw [hc]; ring
        rw [hm] at h1 h2 h4 h6
        refine ⟨by linarith, by linarith, ?_, Or.inr ⟨-hi, by linarith, by linarith, ?_, by simpa using hfa, ?_⟩⟩
        · rcases h4 with h4 | h4
          · have : c = b := by linarith
            rw [this]; exact hfb
          · simpa using h4
        · rcases h5 with h5 | h5
          · left; linarith
          · right; exact h5
        · rcases h6 with h6 | h6
          · left
            rw [abs_neg] at h6
            rw [abs_neg]
            linarith
          · right
            rw [show (50 + 1 : ℕ) = 51 by rfl] at h6
            rw [show b - a = -a - -b by ring, ← h6]
            ring
    obtain ⟨c1, c2, c3, c4⟩ := hcs
    clear_value c
    split
    · rename_i h
      obtain ⟨r1, r2⟩ := hroot c b (fun x => (p.calc x mods inp).pout - inp.discharge) c2
      exact ⟨⟨le_trans c1 r1, r2⟩, Or.inr ⟨trivial, c, c1, c2, c3, c4, Or.inr (Or.inr ⟨rfl, h.1, h.2⟩)⟩⟩
    · split
      · rename_i h
        exact ⟨⟨c1, c2⟩, Or.inr ⟨trivial, c, c1, c2, c3, c4, Or.inr (Or.inl ⟨rfl, h⟩)⟩⟩
      · rename_i h1 h2
        refine ⟨⟨hab, le_refl _⟩, Or.inr ⟨trivial, c, c1, c2, c3, c4, Or.inl ⟨rfl, ?_⟩⟩⟩
        by_contra hn
        exact h1 ⟨not_lt.mp h2, not_lt.mp hn⟩
  · have hfb' : (p.calc b mods inp).within = false := by simpa using hfb
    simp only [hfb', Bool.not_false, if_true]
    exact ⟨⟨hab, le_refl _⟩, Or.inl ⟨trivial, trivial⟩⟩

/-- **Bounds.** Whatever bounds are given for the search, the speed that is found is one that all stages can have, and it
lies within the bounds, provided that there is such a speed. -/
theorem C69_bounds (p : Plant σ) (root : Root) (hroot : Inside root) (mods : List Mod) (inp : Input)
    (lower upper : Option ℚ) (hne : p.stages ≠ []) (h0 : 0 ≤ p.minSpeed) (h1 : ∀ u, upper = some u → 0 < u)
    (hex : ∃ x, Common p x ∧ (∀ l, lower = some l → l ≤ x) ∧ ∀ u, upper = some u → x ≤ u) :
    Common p (p.findSpeed root mods inp lower upper) ∧
    (∀ l, lower = some l → l ≤ p.findSpeed root mods inp lower upper) ∧
    ∀ u, upper = some u → p.findSpeed root mods inp lower upper ≤ u := by
  obtain ⟨b1, b2⟩ := bounds_spec p lower upper h0 h1
  obtain ⟨x, hx, hl, hu⟩ := hex
  obtain ⟨x1, x2⟩ := (C69_range p hne x).mpr hx
  have hab : max p.minSpeed (lower.getD p.minSpeed) ≤ min p.maxSpeed (upper.getD p.maxSpeed) := by
    refine le_trans (b := x) (max_le x1 ?_) (le_min x2 ?_)
    · cases lower with
      | none => exact x1
      | some l => exact hl l rfl
    · cases upper with
      | none => exact x2
      | some u => exact hu u rfl
  obtain ⟨v1, v2⟩ := (C69_search p root hroot mods inp lower upper _ _ b1 b2 hab).1
  refine ⟨(C69_range p hne _).mp ⟨le_trans (le_max_left _ _) v1, le_trans v2 (min_le_left _ _)⟩, ?_, ?_⟩
  · rintro l rfl
    exact le_trans (le_max_right _ _) v1
  · rintro u rfl
    exact le_trans v2 (min_le_right _ _)

/-- Close enough to be near. -/
theorem near_of_abs {d t : ℚ} (h : |d - t| ≤ t / 1001) : Near d t := by
  obtain ⟨h1, h2⟩ := abs_le.mp h
  have ht : 0 ≤ t / 1001 := le_trans (abs_nonneg _) h
  unfold Near NotAbove
  constructor <;> linarith

/-- **Result without pressure control.** With flow and one pressure target, a train without pressure control is run at a
speed that all its stages can have, from fresh settings. If the search for a root converges, the result meets the target, or
it is at the highest speed and out of capacity or below target, or it is within capacity and above target at the lowest
speed in capacity. -/
theorem C69_result (p : Plant σ) (root : Root) (hroot : Inside root) (densityOf : σ → ℚ → ℚ) (up down : Option Control)
    (st st' : State) (inp : Input) (r : Res σ) (hne : p.stages ≠ []) (hov : p.minSpeed ≤ p.maxSpeed)
    (hc : p.control = none) (hi : inp.interstage = none)
    (hpos : ∀ x, ∀ s ∈ (p.calc x p.fresh inp).stages, 0 < s.pin ∧ 0 < s.pout) (ht : 0 < inp.discharge)
    (hconv : ∀ c, (p.calc c p.fresh inp).pout ≤ inp.discharge → inp.discharge ≤ (p.calc p.maxSpeed p.fresh inp).pout →
      |(p.calc (root c p.maxSpeed fun x => (p.calc x p.fresh inp).pout - inp.discharge) p.fresh inp).pout - inp.discharge| ≤
        inp.discharge / 1001)
    (h : p.evaluate root densityOf up down st inp = .ok (some r, st')) :
    Common p r.speed ∧ r = p.calc r.speed p.fresh inp ∧
    (Near r.pout inp.discharge ∧ r.status = .met ∨
      r.speed = p.maxSpeed ∧ r.within = false ∨
      r.speed = p.maxSpeed ∧ r.pout < inp.discharge ∧ r.status ≠ .aboveDischarge ∨
      r.within = true ∧ inp.discharge < r.pout ∧ r.status ≠ .belowDischarge ∧
        (r.speed = p.minSpeed ∨ (p.calc p.minSpeed p.fresh inp).within = false)) := by
  -- the result is the train at the speed found
  have hr : r = p.calc (p.findSpeed root p.fresh inp) p.fresh inp := by
    unfold Plant.evaluate at h
    simp only [hi, hc] at h
    split at h
    · cases h
    · split at h
      · split at h
        · cases h; rfl
        · split at h <;> (cases h; rfl)
      · cases h
  have hs : r.speed = p.findSpeed root p.fresh inp := by rw [hr]; rfl
  rw [← hs] at hr
  have hlen : ∀ (rates : ℕ → List ℚ × List ℚ) (v : ℚ) (k : ℕ) (l : List (StageP σ)) (m : List Mod) (x : σ),
      (runStages v rates k l m x).length = l.length := by
    intro rates v k l
    induction l generalizing k with
    | nil => intro m x; rfl
    | cons s l ih => intro m x; simp [runStages, ih]
  have hst : ∃ f l, r.stages.head? = some f ∧ r.stages.getLast? = some l := by
    have hl : r.stages.length = p.stages.length := by rw [hr]; exact hlen _ _ _ _ _ _
    cases hx : r.stages with
    | nil => rw [hx] at hl; exact absurd (List.length_eq_zero_iff.mp hl.symm) hne
    | cons y ys =>
      have : ((y :: ys).getLast?).isSome := by simp
      obtain ⟨w, hw⟩ := Option.isSome_iff_exists.mp this
      exact ⟨y, w, rfl, hw⟩
  obtain ⟨f, l, hf, hl⟩ := hst
  have hmem := fun s hs' => hpos r.speed s (by rw [← hr]; exact hs')
  have hfp := hmem f (List.mem_of_mem_head? (by rw [hf]; rfl))
  have hlp := hmem l (List.mem_of_getLast? hl)
  rw [hr] at hf hl
  obtain ⟨q1, q2, q3, q4⟩ := C68_run p r.speed p.fresh inp f l hf hl hfp.1 hlp.2 ht (by simp [hi])
  rw [← hr] at q1 q2 q3 q4
  have hb1 : (p.speedBounds none none).1 = p.minSpeed := rfl
  have hb2 : (p.speedBounds none none).2 = p.maxSpeed := rfl
  obtain ⟨⟨v1, v2⟩, hcase⟩ := C69_search p root hroot p.fresh inp none none p.minSpeed p.maxSpeed hb1 hb2 hov
  rw [← hs] at v1 v2 hcase
  refine ⟨(C69_range p hne _).mp ⟨v1, v2⟩, hr, ?_⟩
  rcases hcase with ⟨k1, k2⟩ | ⟨k0, c, c1, c2, c3, c4, hc'⟩
  · right; left
    refine ⟨k2, ?_⟩
    rw [hr, k2]; exact k1
  · rcases hc' with ⟨k1, k2⟩ | ⟨k1, k2⟩ | ⟨k1, k2, k3⟩
    · right; right; left
      have hp : r.pout < inp.discharge := by
        have e : r.pout = (p.calc p.maxSpeed p.fresh inp).pout := by rw [← k1, ← hr]
        rw [e]; exact k2
      refine ⟨k1, hp, ?_⟩
      rw [ne_eq, q3, not_not]
      unfold NotAbove
      rw [q1] at hp
      linarith
    · right; right; right
      have e : p.calc c p.fresh inp = r := by rw [← k1, ← hr]
      simp only [e] at k2 c3
      refine ⟨c3, k2, ?_, ?_⟩
      · rw [ne_eq, q4, not_not]
        unfold NotAbove
        rw [q1] at k2
        linarith
      · rcases c4 with c4 | ⟨d, _, _, _, c5, _⟩
        · left; rw [k1, c4]
        · right; exact c5
    · left
      have := hconv c k2 k3
      have e : p.calc (root c p.maxSpeed fun x => (p.calc x p.fresh inp).pout - inp.discharge) p.fresh inp = r := by
        rw [← k1, ← hr]
      rw [e] at this
      have hn := near_of_abs this
      refine ⟨hn, q2.mpr ?_⟩
      rw [← q1]
      exact hn

/-- **Too high a target.** Suppose that a higher speed never gives a lower pressure, that the train is within capacity at the
highest speed, and that the search for a root converges. If the pressure at the speed that is found is more than one in a
thousand below the target, then no speed that all stages can have reaches the target. -/
theorem C69_unreachable (p : Plant σ) (root : Root) (hroot : Inside root) (mods : List Mod) (inp : Input)
    (hne : p.stages ≠ []) (hov : p.minSpeed ≤ p.maxSpeed) (ht : 0 < inp.discharge)
    (hmono : ∀ x y, x ≤ y → (p.calc x mods inp).pout ≤ (p.calc y mods inp).pout)
    (hmax : (p.calc p.maxSpeed mods inp).within = true)
    (hconv : ∀ c, (p.calc c mods inp).pout ≤ inp.discharge → inp.discharge ≤ (p.calc p.maxSpeed mods inp).pout →
      |(p.calc (root c p.maxSpeed fun x => (p.calc x mods inp).pout - inp.discharge) mods inp).pout - inp.discharge| ≤
        inp.discharge / 1001)
    (h : ¬ NotAbove inp.discharge (p.calc (p.findSpeed root mods inp) mods inp).pout) (v : ℚ) (hv : Common p v) :
    (p.calc v mods inp).pout < inp.discharge := by
  obtain ⟨-, hcase⟩ := C69_search p root hroot mods inp none none p.minSpeed p.maxSpeed rfl rfl hov
  rcases hcase with ⟨k, -⟩ | ⟨-, c, -, -, -, -, ⟨-, k⟩ | ⟨k1, k2⟩ | ⟨k1, k2, k3⟩⟩
  · simp [hmax] at k
  · exact lt_of_le_of_lt (hmono v _ ((C69_range p hne v).mpr hv).2) k
  · exfalso
    rw [k1] at h
    simp only at k2
    unfold NotAbove at h
    linarith
  · exfalso
    have := near_of_abs (hconv c k2 k3)
    rw [k1] at h
    exact h this.2

/-! ## Time steps -/

/-- **One time step.** What a train returns for a time step does not depend on the speed and the settings it was left with. -/
theorem C69_step (p : Plant σ) (root : Root) (densityOf : σ → ℚ → ℚ) (up down : Option Control) (st st' : State)
    (inp : Input) :
    (p.evaluate root densityOf up down st inp).map Prod.fst = (p.evaluate root densityOf up down st' inp).map Prod.fst := by
  unfold Plant.evaluate
  simp only
  split
  · rfl
  · split
    · cases inp.interstage <;> rfl
    · rfl

/-- **All time steps.** The results of a series are those of its time steps on their own, in order, and the series fails
when one of them does. -/
theorem C69_series (p : Plant σ) (root : Root) (densityOf : σ → ℚ → ℚ) (up down : Option Control) (st st0 : State)
    (inps : List Input) :
    (p.evaluateAll root densityOf up down st inps).map Prod.fst =
      inps.mapM fun i => (p.evaluate root densityOf up down st0 i).map Prod.fst := by
  induction inps generalizing st with
  | nil => rfl
  | cons i rest ih =>
    rw [List.mapM_cons, C69_step p root densityOf up down st0 st i]
    unfold Plant.evaluateAll
    cases hi : p.evaluate root densityOf up down st i with
    | error e => rfl
    | ok x =>
      obtain ⟨r, s⟩ := x
      have := ih s
      cases hr : p.evaluateAll root densityOf up down s rest with
      | error e =>
        rw [hr] at this
        simp only [Except.map, Bind.bind, Except.bind] at this ⊢
        rw [← this]
        simp only [hr]
      | ok y =>
        obtain ⟨rs, s'⟩ := y
        rw [hr] at this
        simp only [Except.map, Bind.bind, Except.bind, Pure.pure, Except.pure] at this ⊢
        rw [← this]
        simp only [hr]

/-! ## Examples -/

open Verif.C67

/-- A root finder that halves the bracket thirty times. -/
def halve : Root := fun lo hi f =>
  ((List.range 30).foldl (fun b _ => if f ((b.1 + b.2) / 2) ≤ 0 then ((b.1 + b.2) / 2, b.2) else (b.1, (b.1 + b.2) / 2))
    (lo, hi)).1

theorem halve_inside : Inside halve := by
  intro lo hi f h
  unfold halve
  have : ∀ (l : List ℕ) (b : ℚ × ℚ), lo ≤ b.1 → b.1 ≤ b.2 → b.2 ≤ hi →
      lo ≤ (l.foldl (fun b _ => if f ((b.1 + b.2) / 2) ≤ 0 then ((b.1 + b.2) / 2, b.2) else (b.1, (b.1 + b.2) / 2)) b).1 ∧
      (l.foldl (fun b _ => if f ((b.1 + b.2) / 2) ≤ 0 then ((b.1 + b.2) / 2, b.2) else (b.1, (b.1 + b.2) / 2)) b).1 ≤ hi := by
    intro l
    induction l with
    | nil => intro b h1 h2 h3; exact ⟨h1, le_trans h2 h3⟩
    | cons a l ih =>
      intro b h1 h2 h3
      simp only [List.foldl_cons]
      split
      · exact ih _ (by simp only; linarith) (by simp only; linarith) h3
      · exact ih _ h1 (by simp only; linarith) (by simp only; linarith)
  exact this _ (lo, hi) (le_refl _) h (le_refl _)

example : (three.evaluate halve (fun _ _ => 1) none none ⟨none, []⟩ ⟨10, 260, none, [5, 3, 2]⟩).toOption.map
    (fun x => (x.1.map (fun r => (r.status, r.isValid, decide (r.speed < 2), decide (19 / 10 < r.speed))), x.2.mods)) =
    some (some (.met, true, true, true), [.none, .none, .none]) := by decide +kernel

example : (three.evaluate halve (fun _ _ => 1) none none ⟨none, []⟩ ⟨10, 10000, none, [5, 3, 2]⟩).toOption.map
    (fun x => (x.1.map (fun r => (r.status, r.failure, r.speed)))) =
    some (some (.belowDischarge, .dischargeTooHigh, 3)) := by decide +kernel

example : (three.evaluateAll halve (fun _ _ => 1) none none ⟨none, []⟩
      [⟨10, 10000, none, [5, 3, 2]⟩, ⟨10, 20, none, [0, 0, 0]⟩, ⟨10, 20, none, [5, 3, 2]⟩]).toOption.map
    (fun x => x.1.map (fun r => r.map (fun r => (r.failure, r.speed)))) =
    some [some (.dischargeTooHigh, 3), none, some (.dischargeTooLow, 1)] := by decide +kernel

/-- A lower bound below the lowest speed of the train does not lower the search, one above raises it. -/
example : three.findSpeed halve three.fresh ⟨10, 20, none, [5, 3, 2]⟩ (some (1 / 2)) (some 5) = 1 ∧
    three.findSpeed halve three.fresh ⟨10, 20, none, [5, 3, 2]⟩ (some (3 / 2)) (some 5) = 3 / 2 := by decide +kernel

end Verif.C69
