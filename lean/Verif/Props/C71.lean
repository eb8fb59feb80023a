import Verif.Props.C70

/-!
# C71: trains with a pressure between two stages
-/

namespace Verif.C71
open Verif.Train Verif.Time Verif.Search Verif.C68 Verif.C69 Verif.C70

variable {σ : Type}

/-! ## Parts -/

theorem minSpeed_le (p : Plant σ) (hne : p.stages ≠ []) (v : ℚ) : p.minSpeed ≤ v ↔ ∀ s ∈ p.stages, s.minSpeed ≤ v := by
  unfold Plant.minSpeed
  cases h : p.stages with
  | nil => exact absurd h hne
  | cons s l => simp only [foldl_max_le, List.forall_mem_cons]

theorem le_maxSpeed (p : Plant σ) (hne : p.stages ≠ []) (v : ℚ) : v ≤ p.maxSpeed ↔ ∀ s ∈ p.stages, v ≤ s.maxSpeed := by
  unfold Plant.maxSpeed
  cases h : p.stages with
  | nil => exact absurd h hne
  | cons s l => simp only [le_foldl_min, List.forall_mem_cons]

/-- The bounds for a part, given those of the whole train, are those of the whole train. -/
theorem part_bounds (p q : Plant σ) (hp : p.stages ≠ []) (hq : q.stages ≠ []) (hsub : ∀ s ∈ q.stages, s ∈ p.stages)
    (hpos : ∀ s ∈ p.stages, 0 < s.minSpeed) (hov : p.minSpeed ≤ p.maxSpeed) :
    (q.speedBounds (some p.minSpeed) (some p.maxSpeed)).1 = p.minSpeed ∧
    (q.speedBounds (some p.minSpeed) (some p.maxSpeed)).2 = p.maxSpeed := by
  have h1 : q.minSpeed ≤ p.minSpeed :=
    (minSpeed_le q hq _).mpr fun s hs => (minSpeed_le p hp _).mp (le_refl _) s (hsub s hs)
  have h2 : p.maxSpeed ≤ q.maxSpeed :=
    (le_maxSpeed q hq _).mpr fun s hs => (le_maxSpeed p hp _).mp (le_refl _) s (hsub s hs)
  have h0 : ∀ r : Plant σ, r.stages ≠ [] → (∀ s ∈ r.stages, s ∈ p.stages) → 0 < r.minSpeed := by
    intro r hr hs
    by_contra hc
    push Not at hc
    have := (minSpeed_le r hr 0).mp hc
    cases hl : r.stages with
    | nil => exact hr hl
    | cons s l =>
      have a := this s (by simp [hl])
      have b := hpos s (hs s (by simp [hl]))
      linarith
  obtain ⟨e1, e2⟩ := bounds_spec q (some p.minSpeed) (some p.maxSpeed) (le_of_lt (h0 q hq hsub))
    (fun u hu => by cases hu; exact lt_of_lt_of_le (h0 p hp fun s h => h) hov)
  rw [e1, e2]
  exact ⟨max_eq_right h1, min_eq_right h2⟩

/-- What the evaluation of a part gives. -/
theorem part_good (p q : Plant σ) (hp : p.stages ≠ []) (hq : q.stages ≠ []) (hsub : ∀ s ∈ q.stages, s ∈ p.stages)
    (hpos : ∀ s ∈ p.stages, 0 < s.minSpeed) (hov : p.minSpeed ≤ p.maxSpeed) (root : Root) (hroot : Inside root)
    (m : List Mod) (inp : Input) (v : ℚ) (r : Res σ) (m' : List Mod)
    (h : q.part root p.minSpeed p.maxSpeed m inp = .ok (v, r, m')) :
    v = q.findSpeed root m inp (some p.minSpeed) (some p.maxSpeed) ∧ p.minSpeed ≤ v ∧ v ≤ p.maxSpeed ∧ Good q v inp r := by
  obtain ⟨b1, b2⟩ := part_bounds p q hp hq hsub hpos hov
  obtain ⟨s1, -⟩ := C69_search q root hroot m inp (some p.minSpeed) (some p.maxSpeed) _ _ b1 b2 hov
  unfold Plant.part at h
  simp only at h
  split at h
  · obtain ⟨⟨r', m''⟩, h1, h2⟩ := bind_ok h
    cases h2
    obtain ⟨w, hw, g⟩ := controlled_good q hq root _ inp _ _ h1
    cases hw
    exact ⟨rfl, s1.1, s1.2, g⟩
  · cases h
    exact ⟨rfl, s1.1, s1.2, calc_good q hq _ _ inp⟩

/-! ## The whole -/

/-- What the evaluation with two pressures is made of. -/
theorem two_steps (p : Plant σ) (n : ℕ) (hn1 : 1 ≤ n) (hn2 : n < p.stages.length)
    (hpos : ∀ s ∈ p.stages, 0 < s.minSpeed) (hov : p.minSpeed ≤ p.maxSpeed) (root : Root) (hroot : Inside root)
    (densityOf : σ → ℚ → ℚ) (up down : Option Control) (mods : List Mod) (inp : Input) (t : ℚ) (r : Res σ) (st' : State)
    (h : p.twoPressures root densityOf n up down mods inp t = .ok (r, st')) :
    ∃ (v1 v2 : ℚ) (r1 r2 : Res σ) (fluid : σ) (s : Status),
      v1 = (p.firstPart n up).findSpeed root (mods.take n) ⟨inp.suction, t, none, (splitRates p.stages inp.rates n).1⟩
        (some p.minSpeed) (some p.maxSpeed) ∧
      v2 = (p.lastPart densityOf n down fluid).findSpeed root (mods.drop n)
        ⟨t, inp.discharge, none, (splitRates p.stages inp.rates n).2⟩ (some p.minSpeed) (some p.maxSpeed) ∧
      (p.minSpeed ≤ v1 ∧ v1 ≤ p.maxSpeed) ∧ (p.minSpeed ≤ v2 ∧ v2 ≤ p.maxSpeed) ∧
      Good (p.firstPart n up) (max v1 v2) ⟨inp.suction, t, none, (splitRates p.stages inp.rates n).1⟩ r1 ∧
      Good (p.lastPart densityOf n down fluid) (max v1 v2) ⟨t, inp.discharge, none, (splitRates p.stages inp.rates n).2⟩ r2 ∧
      (v1 ≤ v2 → ∃ m0 m, (p.firstPart n up).controlled root ⟨some v2, m0⟩
        ⟨inp.suction, t, none, (splitRates p.stages inp.rates n).1⟩ = .ok (r1, m)) ∧
      (v2 < v1 → ∃ m0 m, (p.lastPart densityOf n down fluid).controlled root ⟨some v1, m0⟩
        ⟨t, inp.discharge, none, (splitRates p.stages inp.rates n).2⟩ = .ok (r2, m)) ∧
      checkTrain p.interstage inp ⟨r1.pin, r2.pout, max v1 v2, r1.stages ++ r2.stages, .notCalculated,
        exceeds p.maxPower ((r1.stages ++ r2.stages).map (·.power)).sum⟩ = .ok s ∧
      r = ⟨r1.pin, r2.pout, max v1 v2, r1.stages ++ r2.stages, s,
        exceeds p.maxPower ((r1.stages ++ r2.stages).map (·.power)).sum⟩ ∧ st'.speed = some (max v1 v2) := by
  have hp : p.stages ≠ [] := by intro he; rw [he] at hn2; simp at hn2
  have hq1 : (p.firstPart n up).stages ≠ [] := by
    intro he
    have : (p.stages.take n).length = 0 := by rw [show p.stages.take n = [] from he]; rfl
    rw [List.length_take] at this; omega
  have hq2 : ∀ f, (p.lastPart densityOf n down f).stages ≠ [] := by
    intro f he
    have : (p.stages.drop n).length = 0 := by rw [show p.stages.drop n = [] from he]; rfl
    rw [List.length_drop] at this; omega
  unfold Plant.twoPressures at h
  obtain ⟨⟨v1, r1, m1⟩, h1, h2⟩ := bind_ok h
  obtain ⟨e1, a1, b1, g1⟩ := part_good p _ hp hq1 (fun s hs => List.mem_of_mem_take hs) hpos hov root hroot _ _ _ _ _ h1
  simp only at h2
  split at h2
  · cases h2
  · rename_i l hl
    obtain ⟨⟨v2, r2, m2⟩, h3, h4⟩ := bind_ok h2
    obtain ⟨e2, a2, b2, g2⟩ := part_good p _ hp (hq2 l.out) (fun s hs => List.mem_of_mem_drop hs) hpos hov root hroot _ _ _ _ _ h3
    simp only at h4
    split at h4
    · rename_i hv
      obtain ⟨⟨x, m⟩, h9, h10⟩ := bind_ok h4
      obtain ⟨y, h11, h6⟩ := bind_ok h10
      cases h11
      obtain ⟨s, h7, h8⟩ := bind_ok h6
      cases h8
      obtain ⟨w, hw, g⟩ := controlled_good _ (hq2 l.out) root _ _ _ _ h9
      cases hw
      have e : max v1 v2 = v1 := max_eq_left (le_of_lt hv)
      refine ⟨v1, v2, r1, _, l.out, s, e1, e2, ⟨a1, b1⟩, ⟨a2, b2⟩, ?_, ?_, fun hc => absurd hv (not_lt.mpr hc),
        fun _ => ⟨_, _, h9⟩, ?_, ?_, ?_⟩
      · rw [e]; exact g1
      · rw [e]; exact g
      · rw [e]; exact h7
      · rw [e]
      · rw [e]
    · rename_i hv
      obtain ⟨⟨x, m⟩, h9, h10⟩ := bind_ok h4
      obtain ⟨y, h11, h6⟩ := bind_ok h10
      cases h11
      obtain ⟨s, h7, h8⟩ := bind_ok h6
      cases h8
      obtain ⟨w, hw, g⟩ := controlled_good _ hq1 root _ _ _ _ h9
      cases hw
      have e : max v1 v2 = v2 := max_eq_right (not_lt.mp hv)
      refine ⟨v1, v2, _, r2, l.out, s, e1, e2, ⟨a1, b1⟩, ⟨a2, b2⟩, ?_, ?_, fun _ => ⟨_, _, h9⟩,
        fun hc => absurd hc hv, ?_, ?_, ?_⟩
      · rw [e]; exact g
      · rw [e]; exact g2
      · rw [e]; exact h7
      · rw [e]
      · rw [e]

/-- The result of an evaluation with a target between two stages comes from the evaluation of the parts. -/
theorem eval_two (p : Plant σ) (root : Root) (densityOf : σ → ℚ → ℚ) (up down : Option Control) (st st' : State) (inp : Input)
    (t : ℚ) (ht : inp.interstage = some t) (r : Res σ) (h : p.evaluate root densityOf up down st inp = .ok (some r, st')) :
    ∃ n, p.interstage = some n ∧ 1 ≤ n ∧ n < p.stages.length ∧
      p.twoPressures root densityOf n up down p.fresh inp t = .ok (r, st') := by
  unfold Plant.evaluate at h
  simp only [ht] at h
  split at h
  · cases h
  · split at h
    · cases hn : p.interstage with
      | none => rw [hn] at h; cases h
      | some n =>
        rw [hn] at h
        simp only at h
        split at h
        · cases h
        · rename_i hb
          push Not at hb
          obtain ⟨⟨r', s'⟩, h1, h2⟩ := bind_ok h
          cases h2
          refine ⟨n, rfl, hb.1, ?_, h1⟩
          omega
    · cases h

/-- **One shaft.** With a target between two stages, all stages run at one speed, which all of them can have. It is the higher
one of the speeds that the parts need. The result starts from the suction pressure asked for and has all stages, and the
shaft has that speed afterwards. -/
theorem C71_shaft (p : Plant σ) (hpos : ∀ s ∈ p.stages, 0 < s.minSpeed) (hov : p.minSpeed ≤ p.maxSpeed)
    (root : Root) (hroot : Inside root) (densityOf : σ → ℚ → ℚ) (up down : Option Control) (st st' : State) (inp : Input)
    (t : ℚ) (ht : inp.interstage = some t) (r : Res σ) (h : p.evaluate root densityOf up down st inp = .ok (some r, st')) :
    Common p r.speed ∧ st'.speed = some r.speed ∧ r.pin = inp.suction ∧ r.stages.length = p.stages.length ∧
    ∃ n fluid, p.interstage = some n ∧
      r.speed = max
        ((p.firstPart n up).findSpeed root (p.fresh.take n) ⟨inp.suction, t, none, (splitRates p.stages inp.rates n).1⟩
          (some p.minSpeed) (some p.maxSpeed))
        ((p.lastPart densityOf n down fluid).findSpeed root (p.fresh.drop n)
          ⟨t, inp.discharge, none, (splitRates p.stages inp.rates n).2⟩ (some p.minSpeed) (some p.maxSpeed)) := by
  obtain ⟨n, hn, hn1, hn2, h2⟩ := eval_two p root densityOf up down st st' inp t ht r h
  obtain ⟨v1, v2, r1, r2, fluid, s, e1, e2, a1, a2, g1, g2, -, -, -, rfl, hst⟩ :=
    two_steps p n hn1 hn2 hpos hov root hroot densityOf up down _ inp t r st' h2
  have hp : p.stages ≠ [] := by intro he; rw [he] at hn2; simp at hn2
  refine ⟨(C69_range p hp _).mp ⟨le_trans a1.1 (le_max_left _ _), max_le a1.2 a2.2⟩, hst, g1.2.1, ?_, n, fluid, hn, ?_⟩
  · simp only [List.length_append]
    rw [g1.2.2.2, g2.2.2.2]
    show (p.stages.take n).length + (p.stages.drop n).length = p.stages.length
    rw [List.length_take, List.length_drop]
    omega
  · rw [← e1, ← e2]

/-- **Valid means on both targets.** With a target between two stages, a valid result has its discharge pressure near the
target, the pressure after the stage ahead of the cut near the target for it, all stages within capacity, and no more power
than the limit, if there is a limit. -/
theorem C71_valid (p : Plant σ) (hpos : ∀ s ∈ p.stages, 0 < s.minSpeed) (hov : p.minSpeed ≤ p.maxSpeed)
    (root : Root) (hroot : Inside root) (densityOf : σ → ℚ → ℚ) (up down : Option Control) (st st' : State) (inp : Input)
    (t : ℚ) (ht : inp.interstage = some t) (r : Res σ) (h : p.evaluate root densityOf up down st inp = .ok (some r, st'))
    (hs : ∀ s ∈ r.stages, 0 < s.pin ∧ 0 < s.pout) (hpin : 0 < inp.suction) (hpout : 0 < r.pout) (hd : 0 < inp.discharge)
    (ht0 : 0 < t) (hval : r.isValid = true) :
    Near r.pout inp.discharge ∧ (∀ s ∈ r.stages, ¬ Out s) ∧
    (∃ n at_, p.interstage = some n ∧ r.stages[n - 1]? = some at_ ∧ Near at_.pout t) ∧
    (∀ limit, p.maxPower = some limit → limit ≠ 0 → (r.stages.map (·.power)).sum ≤ limit) := by
  obtain ⟨n, hn, hn1, hn2, h2⟩ := eval_two p root densityOf up down st st' inp t ht r h
  obtain ⟨v1, v2, r1, r2, fluid, s, e1, e2, a1, a2, g1, g2, -, -, hc, rfl, hst⟩ :=
    two_steps p n hn1 hn2 hpos hov root hroot densityOf up down _ inp t r st' h2
  obtain ⟨w1, w2, w3⟩ := (C68_valid _).mp hval
  simp only at w2 w3 hs hpout
  -- the status of the whole
  unfold checkTrain at hc
  simp only [hn] at hc
  cases hf : (r1.stages ++ r2.stages).head? with
  | none => rw [hf] at hc; cases hc
  | some f =>
    rw [hf] at hc
    simp only at hc
    rw [if_neg (by omega)] at hc
    cases hk : (r1.stages ++ r2.stages)[n - 1]? with
    | none => rw [hk] at hc; cases hc
    | some k =>
      rw [hk] at hc
      simp only [Except.ok.injEq] at hc
      have hfp := hs f (List.mem_of_mem_head? (by rw [hf]; rfl))
      have hkp := hs k (List.mem_of_getElem? hk)
      have hpin' : r1.pin = inp.suction := g1.2.1
      obtain ⟨c1, -, -, -, -, c6, -⟩ := C68_status inp r1.pin f.pin r2.pout (some k.pout) (by rw [hpin']; exact hpin) hpout
        (fun q hq => by cases hq; exact hkp.2) hd (fun q hq => by rw [ht] at hq; cases hq; exact ht0)
      have hmet : s = .met := by
        rcases w2 with w2 | w2
        · exact w2
        · exfalso
          rw [w2] at hc
          unfold comparePressures at hc
          simp only [ht] at hc
          split at hc
          · cases hc
          · split at hc
            · cases hc
            · split at hc
              · cases hc
              · split at hc
                · cases hc
                · split at hc <;> cases hc
      rw [hmet] at hc
      obtain ⟨d1, d2, d3⟩ := c6.mp hc
      refine ⟨d2, w1, ⟨n, k, hn, hk, d3 t k.pout ht rfl⟩, ?_⟩
      intro limit hl h0
      rw [hl] at w3
      unfold exceeds at w3
      simpa [h0] using w3

/-! ## Where the results are not what one expects -/

/-- As many settings as before come out of pressure control. -/
theorem controlled_settings (q : Plant σ) (root : Root) (v : ℚ) (m : List Mod) (inp : Input) (r : Res σ) (m' : List Mod)
    (hm : m.length = q.stages.length) (h : q.controlled root ⟨some v, m⟩ inp = .ok (r, m')) :
    m'.length = q.stages.length := by
  unfold Plant.controlled at h
  simp only at h
  split at h
  · obtain ⟨r', -, h2⟩ := bind_ok h
    cases h2; exact hm
  · obtain ⟨r', -, h2⟩ := bind_ok h
    cases h2; exact hm
  · simp only [Except.ok.injEq] at h
    have : m' = (q.asvRate root v inp).2 := by rw [h]
    rw [this]
    unfold Plant.asvRate
    simp only
    split
    · simp [Plant.same]
    · split <;> simp [Plant.same]
  · simp only [Except.ok.injEq] at h
    have : m' = (q.asvPressure root v inp).2 := by rw [h]
    rw [this]
    simp [Plant.asvPressure, targetStages_length]
  · simp only [Except.ok.injEq] at h
    have : m' = (q.commonAsv root v inp).2 := by rw [h]
    rw [this]
    rcases common_cases q root v inp with ⟨a, h1⟩ | h1 | ⟨⟨x, h1⟩, -⟩ <;> rw [h1] <;> simp [Plant.same, Plant.fresh]
  · cases h

/-- The lowest speed of a train, up to rounding. -/
def Lowest (p : Plant σ) (v : ℚ) : Prop := |v - p.minSpeed| ≤ 1 / 100000 * max |v| |p.minSpeed|

/-- What happens to the part that sets the speed: it runs without pressure control, unless at the lowest speed. -/
theorem part_steps (p q : Plant σ) (root : Root) (m : List Mod) (hm : m.length = q.stages.length) (inp : Input) (v : ℚ)
    (r : Res σ) (m' : List Mod) (h : q.part root p.minSpeed p.maxSpeed m inp = .ok (v, r, m')) :
    m'.length = q.stages.length ∧ (Lowest p v → q.controlled root ⟨some v, m⟩ inp = .ok (r, m')) ∧
    (¬ Lowest p v → r = q.calc v m inp ∧ m' = m) := by
  unfold Plant.part at h
  simp only at h
  split at h
  · rename_i hc
    obtain ⟨⟨r', m''⟩, h1, h2⟩ := bind_ok h
    cases h2
    refine ⟨controlled_settings q root _ m inp _ _ hm h1, fun _ => h1, fun hn => absurd ?_ hn⟩
    simpa [isclose, Lowest, eps] using hc
  · rename_i hc
    cases h
    refine ⟨hm, fun hl => absurd ?_ hc, fun _ => ⟨rfl, rfl⟩⟩
    simpa [isclose, Lowest, eps] using hl

/-- **Who is controlled.** With a target between two stages, the part that needs the lower speed is brought to its target by
its pressure control. The part that needs the higher speed, which sets the speed of the shaft, runs without pressure control
from fresh settings, unless that is the lowest speed of the train. The settings afterwards are those of the first part
followed by those of the last part. -/
theorem C71_control (p : Plant σ) (root : Root) (densityOf : σ → ℚ → ℚ) (up down : Option Control) (st st' : State) (inp : Input)
    (t : ℚ) (ht : inp.interstage = some t) (r : Res σ) (h : p.evaluate root densityOf up down st inp = .ok (some r, st')) :
    ∃ n fluid r1 r2 v1 v2, p.interstage = some n ∧ r.stages = r1.stages ++ r2.stages ∧ r.speed = max v1 v2 ∧
      r.pin = r1.pin ∧ r.pout = r2.pout ∧ (∃ s, r1.stages.getLast? = some s ∧ (v2 < v1 → fluid = s.out)) ∧
      st'.mods.length = p.stages.length ∧
      let first := p.firstPart n up
      let last := p.lastPart densityOf n down fluid
      let inp1 : Input := ⟨inp.suction, t, none, (splitRates p.stages inp.rates n).1⟩
      let inp2 : Input := ⟨t, inp.discharge, none, (splitRates p.stages inp.rates n).2⟩
      (v1 ≤ v2 → (∃ m, first.controlled root ⟨some v2, m⟩ inp1 = .ok (r1, st'.mods.take n)) ∧
        (Lowest p v2 → last.controlled root ⟨some v2, last.fresh⟩ inp2 = .ok (r2, st'.mods.drop n)) ∧
        (¬ Lowest p v2 → r2 = last.calc v2 last.fresh inp2 ∧ st'.mods.drop n = last.fresh)) ∧
      (v2 < v1 → (∃ m, last.controlled root ⟨some v1, m⟩ inp2 = .ok (r2, st'.mods.drop n)) ∧
        (Lowest p v1 → first.controlled root ⟨some v1, first.fresh⟩ inp1 = .ok (r1, st'.mods.take n)) ∧
        (¬ Lowest p v1 → r1 = first.calc v1 first.fresh inp1 ∧ st'.mods.take n = first.fresh)) := by
  obtain ⟨n, hn, n1, n2, h⟩ := eval_two p root densityOf up down st st' inp t ht r h
  have f1 : p.fresh.take n = (p.firstPart n up).fresh := by simp [Plant.fresh, Plant.firstPart]
  have f2 : ∀ f, p.fresh.drop n = (p.lastPart densityOf n down f).fresh := by
    intro f; simp [Plant.fresh, Plant.lastPart]
  have l1 : (p.firstPart n up).stages.length = n := by simp [Plant.firstPart]; omega
  have l2 : ∀ f, (p.lastPart densityOf n down f).stages.length = p.stages.length - n := by simp [Plant.lastPart]
  have lf : ∀ q : Plant σ, q.fresh.length = q.stages.length := by simp [Plant.fresh]
  unfold Plant.twoPressures at h
  obtain ⟨⟨v1, r1, m1⟩, h1, h2⟩ := bind_ok h
  rw [f1] at h1
  obtain ⟨k1, a1, b1⟩ := part_steps p _ root _ (lf _) _ _ _ _ h1
  simp only at h2
  split at h2
  · cases h2
  · rename_i l hl
    obtain ⟨⟨v2, r2, m2⟩, h3, h4⟩ := bind_ok h2
    rw [f2 l.out] at h3
    obtain ⟨k2, a2, b2⟩ := part_steps p _ root _ (lf _) _ _ _ _ h3
    simp only at h4
    split at h4
    · rename_i hv
      obtain ⟨⟨x, m⟩, h9, h10⟩ := bind_ok h4
      obtain ⟨y, h11, h6⟩ := bind_ok h10
      cases h11
      obtain ⟨s, h7, h8⟩ := bind_ok h6
      cases h8
      have k3 := controlled_settings _ root _ _ _ _ _ k2 h9
      have t1 : (m1 ++ m).take n = m1 := by rw [List.take_left' (by rw [k1, l1])]
      have t2 : (m1 ++ m).drop n = m := by rw [List.drop_left' (by rw [k1, l1])]
      refine ⟨n, l.out, r1, x, v1, v2, hn, rfl, (max_eq_left (le_of_lt hv)).symm, rfl, rfl, ⟨l, hl, fun _ => rfl⟩, ?_, ?_, ?_⟩
      · rw [List.length_append, k1, k3, l1, l2]; omega
      · intro hc; exact absurd hv (not_lt.mpr hc)
      · intro _
        simp only [t1, t2]
        exact ⟨⟨_, h9⟩, a1, b1⟩
    · rename_i hv
      obtain ⟨⟨x, m⟩, h9, h10⟩ := bind_ok h4
      obtain ⟨y, h11, h6⟩ := bind_ok h10
      cases h11
      obtain ⟨s, h7, h8⟩ := bind_ok h6
      cases h8
      have k3 := controlled_settings _ root _ _ _ _ _ k1 h9
      have t1 : (m ++ m2).take n = m := by rw [List.take_left' (by rw [k3, l1])]
      have t2 : (m ++ m2).drop n = m2 := by rw [List.drop_left' (by rw [k3, l1])]
      have hx : ∃ s, x.stages.getLast? = some s := by
        obtain ⟨w, -, g⟩ := controlled_good (p.firstPart n up) (by
          intro he
          rw [he] at l1
          simp only [List.length_nil] at l1
          omega) root _ _ _ _ h9
        obtain ⟨-, s, -, hs⟩ := ends x.stages (by
          intro he
          have := g.2.2.2
          rw [he, l1] at this
          simp only [List.length_nil] at this
          omega)
        exact ⟨s, hs⟩
      obtain ⟨s', hs'⟩ := hx
      refine ⟨n, l.out, x, r2, v1, v2, hn, rfl, (max_eq_right (not_lt.mp hv)).symm, rfl, rfl,
        ⟨s', hs', fun hc => absurd hc hv⟩, ?_, ?_, ?_⟩
      · rw [List.length_append, k2, k3, l1, l2]; omega
      · intro _
        simp only [t1, t2]
        exact ⟨⟨_, h9⟩, a2, b2⟩
      · intro hc; exact absurd hc hv

/-- **No limit ahead of the choke.** With a target between two stages, the limit on the pressure ahead of a downstream choke
has no effect. -/
theorem C71_limit_ignored (p : Plant σ) (limit : Option ℚ) (root : Root) (densityOf : σ → ℚ → ℚ) (up down : Option Control)
    (st : State) (inp : Input) (t : ℚ) (ht : inp.interstage = some t) :
    ({ p with maxDischarge := limit }).evaluate root densityOf up down st inp =
      p.evaluate root densityOf up down st inp := by
  unfold Plant.evaluate
  simp only [ht]
  rfl

/-- A train of two stages with a target between them. -/
def pair : Plant (ℚ × ℚ) := { C67.three with stages := [C67.toy 0 0, C67.toy 0 0], interstage := some 1 }

/-- **A choke ahead of the cut does not help.** The last part needs the higher speed, and the first part has a downstream choke.
The choke brings the pressure down to the target between the stages, all stages are within capacity and the discharge pressure
is on target, but the result is not valid: the pressure ahead of the choke is looked at. -/
theorem C71_choke_refused : ∃ (inp : Input) (r r1 : Res (ℚ × ℚ)) (st' : State) (t : ℚ) (m : List Mod),
    inp.interstage = some t ∧
    pair.evaluate bisect (fun _ _ => 1) (some .downstreamChoke) (some .downstreamChoke) ⟨none, []⟩ inp = .ok (some r, st') ∧
    (pair.firstPart 1 (some .downstreamChoke)).controlled bisect ⟨st'.speed, pair.fresh.take 1⟩
      ⟨inp.suction, t, none, inp.rates⟩ = .ok (r1, m) ∧ r1.stages.map (·.pout) = (r.stages.take 1).map (·.pout) ∧ r1.pout = t ∧ r1.isValid = true ∧
    (∀ s ∈ r.stages, s.valid = true) ∧ Near r.pout inp.discharge ∧ r.failure = .intermediateTooLow ∧ r.isValid = false := by
  have h : (pair.evaluate bisect (fun _ _ => 1) (some .downstreamChoke) (some .downstreamChoke) ⟨none, []⟩
      ⟨10, 60, some 20, [5]⟩).toOption.map (fun x => x.1.map (fun r => (decide (∀ s ∈ r.stages, s.valid = true),
        decide (r.pout ≤ 60 * (1 + 1 / 1000)), decide (60 ≤ r.pout * (1 + 1 / 1000)), r.failure, r.isValid))) =
      some (some (true, true, true, .intermediateTooLow, false)) := by decide +kernel
  have h' : (pair.evaluate bisect (fun _ _ => 1) (some .downstreamChoke) (some .downstreamChoke) ⟨none, []⟩
      ⟨10, 60, some 20, [5]⟩).toOption.map (fun x => x.1.map (fun r =>
        ((pair.firstPart 1 (some .downstreamChoke)).controlled bisect ⟨x.2.speed, pair.fresh.take 1⟩
          ⟨10, 20, none, [5]⟩).toOption.map (fun y => (decide (y.1.stages.map (·.pout) = (r.stages.take 1).map (·.pout)), y.1.pout, y.1.isValid)))) =
      some (some (some (true, 20, true))) := by decide +kernel
  cases he : pair.evaluate bisect (fun _ _ => 1) (some .downstreamChoke) (some .downstreamChoke) ⟨none, []⟩
      ⟨10, 60, some 20, [5]⟩ with
  | error e => rw [he] at h; cases h
  | ok x =>
    obtain ⟨o, st'⟩ := x
    cases o with
    | none => rw [he] at h; cases h
    | some r =>
      rw [he] at h h'
      simp only [Except.toOption, Option.map_some, Option.some.injEq, Prod.mk.injEq, decide_eq_true_eq] at h h'
      cases hy : (pair.firstPart 1 (some .downstreamChoke)).controlled bisect ⟨st'.speed, pair.fresh.take 1⟩
          ⟨10, 20, none, [5]⟩ with
      | error e => rw [hy] at h'; cases h'
      | ok y =>
        obtain ⟨r1, m⟩ := y
        rw [hy] at h'
        simp only [Option.map_some, Option.some.injEq, Prod.mk.injEq, decide_eq_true_eq] at h'
        exact ⟨_, r, r1, st', 20, m, rfl, he, hy, h'.1, h'.2.1, h'.2.2, h.1, ⟨h.2.1, h.2.2.1⟩, h.2.2.2.1, h.2.2.2.2⟩

/-- A train of three stages with a target between the second and the third. -/
def triple : Plant (ℚ × ℚ) := { C67.three with stages := [C67.toy 0 0, C67.toy 0 0, C67.toy 0 0], interstage := some 2 }

/-- **A crash.** The last part of a train looks up the stage ahead of the cut in its own results. With a choke, and fewer stages
behind the cut than ahead of it, there is no such stage, and the evaluation raises an `IndexError`. With another control, the
same train at the same conditions gives a valid result. -/
theorem C71_crash :
    triple.evaluate bisect (fun _ _ => 1) (some .upstreamChoke) (some .upstreamChoke) ⟨none, []⟩ ⟨1, 20, some 7, [5]⟩ =
      .error .indexError ∧
    ((triple.evaluate bisect (fun _ _ => 1) (some .upstreamChoke) (some .individualRate) ⟨none, []⟩
      ⟨1, 20, some 7, [5]⟩).toOption.map (fun x => x.1.map (·.isValid))) = some (some true) := by
  refine ⟨?_, by decide +kernel⟩
  have h : (match triple.evaluate bisect (fun _ _ => 1) (some .upstreamChoke) (some .upstreamChoke) ⟨none, []⟩
      ⟨1, 20, some 7, [5]⟩ with | .error e => some e | .ok _ => none) = some .indexError := by decide +kernel
  split at h
  · rename_i e he
    rw [he]
    cases h
    rfl
  · cases h

/-! ## Examples -/

example : (triple.evaluate bisect (fun _ _ => 1) none (some .individualRate) ⟨none, []⟩ ⟨1, 20, some 7, [5]⟩).toOption.map
    (fun x => (x.1.map (fun r => (r.stages.length, r.pin, decide (|r.speed - 2| < 1 / 1000),
      decide (|r.pout - 20| < 1 / 100))))) = some (some (3, 1, true, true)) := by decide +kernel

example : Common triple 2 := (C69_range triple (by decide +kernel) 2).mp (by decide +kernel)

/-- The last part sets the speed; the valve of the first part recirculates. -/
example : (pair.evaluate bisect (fun _ _ => 1) (some .individualRate) (some .individualRate) ⟨none, []⟩
    ⟨1, 8, some 2, [5]⟩).toOption.map (fun x => (x.1.map (fun r => decide (2 < r.speed)), x.2.mods.map fun m => match m with
      | .fraction f => decide (0 < f)
      | _ => false)) = some (some true, [true, false]) := by decide +kernel

end Verif.C71
