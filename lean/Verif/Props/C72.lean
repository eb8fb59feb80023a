import Verif.Props.C71

/-!
# C72: the maximum rate of a compressor train
-/

namespace Verif.C72
open Verif.Train Verif.Time Verif.Search Verif.C68 Verif.C69 Verif.C70

variable {σ : Type}

/-! ## Specification -/

/-- The train with fresh settings at a speed and a standard rate. -/
def run (p : Plant σ) (inp : Input) (v q : ℚ) : Res σ := p.calc v p.fresh (inp.withRate q)

/-- A rate that the train can take to the target pressure, at some speed that all stages can have; what is too much of
pressure may be choked. -/
def Feasible (p : Plant σ) (inp : Input) (q : ℚ) : Prop :=
  ∃ v, Common p v ∧ (run p inp v q).within = true ∧ inp.discharge ≤ (run p inp v q).pout

/-- How compressors behave: a lower rate is within capacity if a higher one is (the anti-surge valve sees to it) and has no
less pressure; a higher speed takes what a lower one takes, with no less pressure. -/
structure Usual (p : Plant σ) (inp : Input) : Prop where
  lower : ∀ v q q', q' ≤ q → (run p inp v q).within = true → (run p inp v q').within = true
  falls : ∀ v q q', q' ≤ q → (run p inp v q).pout ≤ (run p inp v q').pout
  faster : ∀ v w q, v ≤ w → (run p inp v q).within = true → (run p inp w q).within = true
  rises : ∀ v w q, v ≤ w → (run p inp v q).pout ≤ (run p inp w q).pout

/-- Least and largest mass rate of the first stage at its highest speed. -/
def least (p : Plant σ) (inp : Input) : ℚ := p.first (fun s => s.minRate s.maxSpeed) * p.density inp.suction
def largest (p : Plant σ) (inp : Input) : ℚ := p.first (fun s => s.maxRate s.maxSpeed) * p.density inp.suction

/-- A rate can be taken to the target if and only if it can be at the highest speed. -/
theorem feasible_max (p : Plant σ) (inp : Input) (hu : Usual p inp) (hne : p.stages ≠ []) (hov : p.minSpeed ≤ p.maxSpeed)
    (q : ℚ) : Feasible p inp q ↔
      (run p inp p.maxSpeed q).within = true ∧ inp.discharge ≤ (run p inp p.maxSpeed q).pout := by
  constructor
  · rintro ⟨v, hv, h1, h2⟩
    have := ((C69_range p hne v).mpr hv).2
    exact ⟨hu.faster v _ q this h1, le_trans h2 (hu.rises v _ q this)⟩
  · rintro ⟨h1, h2⟩
    exact ⟨p.maxSpeed, (C69_range p hne _).mp ⟨hov, le_refl _⟩, h1, h2⟩

/-! ## Search -/

/-- **The largest mass rate.** Let the pressure be controlled by a downstream choke. If a mass rate is found, it is one in a
thousand below a mass rate `x` that is within capacity at the highest speed. Either `x` is brought to the target or above,
and a mass rate just above `x` is the chart's largest or more than the train can take; or, if the search for a root
converges, `x` is brought close to the target, and no higher rate is brought to more. If none is found, no rate from the
least flow of the first stage on can be brought to the target. -/
theorem C72_mass (p : Plant σ) (root : Root) (hroot : Inside root) (densityOf : σ → ℚ → ℚ) (v0 : Option ℚ) (inp : Input)
    (hu : Usual p inp) (hne : p.stages ≠ []) (hov : p.minSpeed ≤ p.maxSpeed) (hstd : 0 < p.std)
    (hlo : least p inp ≤ largest p inp) (hc : p.control = some .downstreamChoke) :
    (∃ x, p.maxMass root densityOf ⟨v0, p.fresh⟩ inp = .ok (.inr (x * (1 - tol))) ∧
      least p inp ≤ x ∧ x ≤ largest p inp ∧ (run p inp p.maxSpeed (x * p.std)).within = true ∧
      ((inp.discharge ≤ (run p inp p.maxSpeed (x * p.std)).pout ∧
        ∃ top, x ≤ top ∧ top ≤ largest p inp ∧
          (top = largest p inp ∨ ∀ q, top * p.std ≤ q → ¬ Feasible p inp q) ∧
          (top - x ≤ tol * max |x| |top| ∨ top - x = (largest p inp - least p inp) / 2 ^ 21)) ∨
       ∃ b, x = root (least p inp) b (fun y => (run p inp p.maxSpeed (y * p.std)).pout - inp.discharge) ∧
        least p inp ≤ b ∧ b ≤ largest p inp ∧
        (run p inp p.maxSpeed (b * p.std)).pout ≤ inp.discharge ∧
        inp.discharge ≤ (run p inp p.maxSpeed (least p inp * p.std)).pout ∧
        ∀ e, |(run p inp p.maxSpeed (x * p.std)).pout - inp.discharge| ≤ e →
          inp.discharge - e ≤ (run p inp p.maxSpeed (x * p.std)).pout ∧
          ∀ q v, x * p.std ≤ q → Common p v → (run p inp v q).pout ≤ inp.discharge + e)) ∨
    (p.maxMass root densityOf ⟨v0, p.fresh⟩ inp = .ok (.inl 0) ∧
      ∀ q, least p inp * p.std ≤ q → ¬ Feasible p inp q) := by
  have hm : p.maxMass root densityOf ⟨v0, p.fresh⟩ inp =
      (if !(run p inp p.maxSpeed (least p inp * p.std)).within then .ok (.inl 0)
      else
        if (run p inp p.maxSpeed (least p inp * p.std)).pout < inp.discharge then .ok (.inl 0)
        else if inp.discharge ≥ (run p inp p.maxSpeed (p.mostMass p.fresh inp * p.std)).pout then
          .ok (.inr (root (least p inp) (p.mostMass p.fresh inp)
            (fun x => (run p inp p.maxSpeed (x * p.std)).pout - inp.discharge) * (1 - tol)))
        else .ok (.inr (p.mostMass p.fresh inp * (1 - tol)))) := by
    unfold Plant.maxMass
    simp only [hc, if_true]
    rfl
  rw [hm]
  clear hm
  -- the largest mass rate in capacity
  have hmost : ∃ most, p.mostMass p.fresh inp = most ∧ least p inp ≤ most ∧ most ≤ largest p inp ∧
      ((run p inp p.maxSpeed (least p inp * p.std)).within = true →
        (run p inp p.maxSpeed (most * p.std)).within = true) ∧
      ∃ top, most ≤ top ∧ top ≤ largest p inp ∧
          (top = largest p inp ∨ (run p inp p.maxSpeed (top * p.std)).within = false) ∧
          (top - most ≤ tol * max |most| |top| ∨ top - most = (largest p inp - least p inp) / 2 ^ 21) := by
    have hdef : p.mostMass p.fresh inp = if (run p inp p.maxSpeed (largest p inp * p.std)).within
      then largest p inp else maximizeX tol 20 (least p inp) (largest p inp)
        fun x => (run p inp p.maxSpeed (x * p.std)).within := rfl
    rw [hdef]
    split
    · rename_i h
      refine ⟨_, rfl, hlo, le_refl _, fun _ => h, _, le_refl _, le_refl _, Or.inl rfl, Or.inl ?_⟩
      rw [sub_self]
      exact mul_nonneg (by norm_num [tol]) (le_trans (abs_nonneg _) (le_max_left _ _))
    · obtain ⟨top, t1, t2, t3, t4, t5, t6⟩ := C27.C27_maximize tol 20 (least p inp) (largest p inp)
        (fun x => (run p inp p.maxSpeed (x * p.std)).within) hlo (by norm_num [tol]) (by norm_num [tol])
      refine ⟨_, rfl, t1, le_trans t2 t3, ?_, top, t2, t3, t5, t6⟩
      intro hw
      rcases t4 with t4 | t4
      · rw [t4]; exact hw
      · exact t4
  obtain ⟨most, e, m1, m2, m3, top, t1, t2, t3, t4⟩ := hmost
  rw [e]
  by_cases hw : (run p inp p.maxSpeed (least p inp * p.std)).within = true
  · simp only [hw, Bool.not_true, Bool.false_eq_true, if_false]
    by_cases hp : (run p inp p.maxSpeed (least p inp * p.std)).pout < inp.discharge
    · right
      rw [if_pos hp]
      refine ⟨rfl, fun q hq hf => ?_⟩
      have := ((feasible_max p inp hu hne hov q).mp hf).2
      have := hu.falls p.maxSpeed q _ hq
      linarith
    · left
      rw [if_neg hp]
      push Not at hp
      by_cases hd : inp.discharge ≥ (run p inp p.maxSpeed (most * p.std)).pout
      · rw [if_pos hd]
        obtain ⟨i1, i2⟩ := hroot (least p inp) most (fun x => (run p inp p.maxSpeed (x * p.std)).pout - inp.discharge) m1
        refine ⟨_, rfl, i1, le_trans i2 m2, ?_, Or.inr ⟨most, rfl, m1, m2, hd, hp, ?_⟩⟩
        · exact hu.lower _ _ _ (mul_le_mul_of_nonneg_right i2 (le_of_lt hstd)) (m3 hw)
        · intro ε hε
          obtain ⟨h1, h2⟩ := abs_le.mp hε
          refine ⟨by linarith, fun q v hq hv => ?_⟩
          have a := hu.rises v p.maxSpeed q ((C69_range p hne v).mpr hv).2
          have b := hu.falls p.maxSpeed q _ hq
          linarith
      · rw [if_neg hd]
        push Not at hd
        refine ⟨most, rfl, m1, m2, m3 hw, Or.inl ⟨le_of_lt hd, top, t1, t2, ?_, t4⟩⟩
        rcases t3 with t3 | t3
        · exact Or.inl t3
        · right
          intro q hq hf
          have := hu.lower p.maxSpeed q _ hq ((feasible_max p inp hu hne hov q).mp hf).1
          rw [t3] at this
          cases this
  · right
    simp only [hw]
    refine ⟨rfl, fun q hq hf => hw ?_⟩
    exact hu.lower p.maxSpeed q _ hq ((feasible_max p inp hu hne hov q).mp hf).1

/-! ## The rate that is announced can be taken -/

theorem within_status (p : Plant σ) (inp : Input) (hne : p.stages ≠ []) (v q : ℚ) (ht : 0 < inp.discharge)
    (hi : inp.interstage = none) (hpos : ∀ s ∈ (run p inp v q).stages, 0 < s.pin ∧ 0 < s.pout) :
    ((run p inp v q).status = .met ↔ Near (run p inp v q).pout inp.discharge) ∧
    ((run p inp v q).status = .belowDischarge ↔ ¬ NotAbove inp.discharge (run p inp v q).pout) := by
  have hlen := calc_length p v p.fresh (inp.withRate q)
  obtain ⟨f, l, hf, hl⟩ := ends (run p inp v q).stages (by
    intro he
    have hlen : (run p inp v q).stages.length = p.stages.length := hlen
    rw [he] at hlen
    exact hne (List.length_eq_zero_iff.mp hlen.symm))
  have hfp := hpos f (List.mem_of_mem_head? (by rw [hf]; rfl))
  have hlp := hpos l (List.mem_of_getLast? hl)
  obtain ⟨q1, q2, -, q4⟩ := C68_run p v p.fresh (inp.withRate q) f l hf hl hfp.1 hlp.2 ht
    (by intro t h; rw [show (inp.withRate q).interstage = inp.interstage from rfl, hi] at h; cases h)
  have q1' : (run p inp v q).pout = l.pout := q1
  rw [q1']
  exact ⟨q2, q4⟩

/-- **The rate can be taken.** Let the pressure be controlled by a downstream choke, without limits on power and on the pressure
ahead of the choke, and let the searches for roots converge. If a rate is announced, evaluating the train at it gives a valid
result, hence one with the target pressure. -/
theorem C72_taken (p : Plant σ) (root : Root) (hroot : Inside root) (densityOf : σ → ℚ → ℚ) (v0 : Option ℚ) (inp : Input)
    (up down : Option Control) (st st' : State)
    (hu : Usual p inp) (hne : p.stages ≠ []) (hov : p.minSpeed ≤ p.maxSpeed) (hstd : 0 < p.std) (hlo0 : 0 ≤ least p inp)
    (hlo : least p inp ≤ largest p inp) (hc : p.control = some .downstreamChoke) (hm : p.maxPower = none)
    (hd : p.maxDischarge = none) (hi : inp.interstage = none) (ht : 0 < inp.discharge)
    (hpin : 0 < inp.suction)
    (hpos : ∀ v q, (run p inp v q).within = true → ∀ s ∈ (run p inp v q).stages, 0 < s.pin ∧ 0 < s.pout)
    (hfirst : ∀ v q f, (run p inp v q).stages.head? = some f → f.pin ≤ inp.suction)
    (hconv1 : ∀ b, least p inp ≤ b → b ≤ largest p inp → (run p inp p.maxSpeed (b * p.std)).pout ≤ inp.discharge →
      inp.discharge ≤ (run p inp p.maxSpeed (least p inp * p.std)).pout →
      |(run p inp p.maxSpeed (root (least p inp) b (fun y => (run p inp p.maxSpeed (y * p.std)).pout - inp.discharge) *
        p.std)).pout - inp.discharge| ≤ inp.discharge / 1001)
    (q : ℚ) (hconv2 : ∀ c, p.minSpeed ≤ c → c ≤ p.maxSpeed → (run p inp c q).pout ≤ inp.discharge → inp.discharge ≤ (run p inp p.maxSpeed q).pout →
      |(run p inp (root c p.maxSpeed fun x => (run p inp x q).pout - inp.discharge) q).pout - inp.discharge| ≤
        inp.discharge / 1001)
    (hq : p.maxRate root densityOf ⟨v0, p.fresh⟩ inp = .ok q) (r : Res σ)
    (h : p.evaluate root densityOf up down st (inp.withRate q) = .ok (some r, st')) (hq0 : q ≠ 0) :
    r.isValid = true ∧ Near r.pout inp.discharge := by
  -- the train takes the rate at the highest speed
  have key : (run p inp p.maxSpeed q).within = true ∧ inp.discharge - inp.discharge / 1001 ≤ (run p inp p.maxSpeed q).pout := by
    unfold Plant.maxRate at hq
    obtain ⟨found, f1, f2⟩ := bind_ok hq
    rcases C72_mass p root hroot densityOf v0 inp hu hne hov hstd hlo hc with ⟨x, x1, x2, -, x4, x5⟩ | ⟨x1, -⟩
    · rw [f1] at x1
      cases x1
      simp only [hm] at f2
      cases f2
      have hle : x * (1 - tol) * p.std ≤ x * p.std := by
        apply mul_le_mul_of_nonneg_right _ (le_of_lt hstd)
        unfold tol
        linarith
      refine ⟨hu.lower _ _ _ hle x4, le_trans ?_ (hu.falls _ _ _ hle)⟩
      have hd0 : 0 < inp.discharge / 1001 := by positivity
      rcases x5 with ⟨y1, -⟩ | ⟨b, y1, y5, y6, y2, y3, y4⟩
      · linarith
      · exact (y4 (inp.discharge / 1001) (by rw [y1]; exact hconv1 b y5 y6 y2 y3)).1
    · rw [f1] at x1
      cases x1
      cases f2
      exact absurd rfl hq0
  -- the speed that is found
  obtain ⟨-, hcase⟩ := C69_search p root hroot p.fresh (inp.withRate q) none none p.minSpeed p.maxSpeed rfl rfl hov
  simp only at hcase
  set v := p.findSpeed root p.fresh (inp.withRate q) with hv
  have hd0 : 0 < inp.discharge / 1001 := by positivity
  have hsp : (run p inp v q).within = true ∧
      (Near (run p inp v q).pout inp.discharge ∨ inp.discharge < (run p inp v q).pout) := by
    rcases hcase with ⟨k, -⟩ | ⟨-, c, c1, c2, c3, -, ⟨k1, k2⟩ | ⟨k1, k2⟩ | ⟨k1, k2, k3⟩⟩
    · have := key.1
      rw [show (run p inp p.maxSpeed q).within = (p.calc p.maxSpeed p.fresh (inp.withRate q)).within from rfl, k] at this
      cases this
    · rw [k1]
      refine ⟨key.1, Or.inl (near_of_abs ?_)⟩
      rw [abs_le]
      have k2 : (run p inp p.maxSpeed q).pout < inp.discharge := k2
      constructor
      · linarith [key.2]
      · linarith
    · rw [k1]
      exact ⟨c3, Or.inr k2⟩
    · have a := hconv2 c c1 c2 k2 k3
      have hin := hroot c p.maxSpeed (fun x => (p.calc x p.fresh (inp.withRate q)).pout - (inp.withRate q).discharge) c2
      rw [← k1] at hin
      refine ⟨hu.faster c v q hin.1 c3, Or.inl ?_⟩
      rw [k1]
      exact near_of_abs a
  obtain ⟨s1, s2⟩ := within_status p inp hne v q ht hi (hpos v q hsp.1)
  have hap : (run p inp v q).abovePower = false := by
    show exceeds p.maxPower _ = false
    rw [hm]; rfl
  have hout : ∀ s ∈ (run p inp v q).stages, ¬ Out s := by
    have hw := hsp.1
    unfold Res.within at hw
    rw [List.all_eq_true] at hw
    intro s hs ho
    have a := hw s hs
    rw [(within_iff s).mpr ho] at a
    cases a
  unfold Plant.evaluate at h
  simp only [show (inp.withRate q).interstage = none from hi, hc] at h
  rw [← hv] at h
  change (if (!nonneg p.stages (inp.withRate q).rates) = true then _ else if anyIngoing p.stages (inp.withRate q).rates = true
    then if (run p inp v q).status = .met then _ else _ else _) = _ at h
  split at h
  · cases h
  · split at h
    · split at h
      · rename_i hst
        cases h
        exact ⟨(C68_valid _).mpr ⟨hout, Or.inl hst, hap⟩, s1.mp hst⟩
      · rename_i hst
        change (if (run p inp v q).status = .belowDischarge then _ else _) = _ at h
        split at h
        · rename_i hbe
          exfalso
          have := s2.mp hbe
          rcases hsp.2 with k | k
          · exact this k.2
          · apply this
            unfold NotAbove
            have : (0 : ℚ) < (run p inp v q).pout := lt_trans ht k
            linarith
        · obtain ⟨⟨r', m'⟩, h1, h2⟩ := bind_ok h
          simp only [Pure.pure, Except.pure, Except.ok.injEq, Prod.mk.injEq, Option.some.injEq] at h2
          obtain ⟨rfl, -⟩ := h2
          unfold Plant.controlled at h1
          simp only [hc] at h1
          obtain ⟨r'', h3, h4⟩ := bind_ok h1
          simp only [Pure.pure, Except.pure, Except.ok.injEq, Prod.mk.injEq] at h4
          obtain ⟨rfl, -⟩ := h4
          obtain ⟨d1, d2, d3, d4⟩ := C70_downstream p hne root v p.fresh (inp.withRate q) _ hd
            (hpos v q hsp.1) ht
            (by intro t h; rw [show (inp.withRate q).interstage = inp.interstage from rfl, hi] at h; cases h) h3
          have hnear : ¬ Near (run p inp v q).pout inp.discharge := fun hc => hst (s1.mpr hc)
          have hgt : inp.discharge < (run p inp v q).pout := by
            rcases hsp.2 with k | k
            · exact absurd k hnear
            · exact k
          have hna : ¬ NotAbove (run p inp v q).pout inp.discharge := by
            intro hc
            apply hnear
            refine ⟨hc, ?_⟩
            unfold NotAbove
            have : (0 : ℚ) < (run p inp v q).pout := lt_trans ht hgt
            linarith
          obtain ⟨d5, d6⟩ := d3 hna
          have hnr : Near r''.pout inp.discharge := by
            rw [d5]
            show Near inp.discharge inp.discharge
            unfold Near NotAbove
            constructor <;> linarith
          refine ⟨(C68_valid _).mpr ⟨?_, Or.inl ?_, ?_⟩, hnr⟩
          · rw [d1]; exact hout
          · -- the status of the choked result
            obtain ⟨⟨f, s, i, g1, g2, g3, -⟩, g4, -⟩ := downstream_good p hne root v p.fresh (inp.withRate q) _ h3
            have hfm : f ∈ (run p inp v q).stages := by
              have := List.mem_of_mem_head? (show f ∈ r''.stages.head? by rw [g1]; rfl)
              rw [d1] at this
              exact this
            have hfp := hpos v q hsp.1 f hfm
            have hf1 := hfirst v q f (by rw [← g1, d1]; rfl)
            have hs0 : 0 < s ∧ f.pin ≤ s := by
              rcases g2 with rfl | rfl
              · exact ⟨hfp.1, le_refl _⟩
              · rw [g4]; exact ⟨hpin, hf1⟩
            rw [g3]
            have hcmp : comparePressures (inp.withRate q) s f.pin r''.pout i =
                comparePressures (inp.withRate q) s f.pin r''.pout none := by
              unfold comparePressures
              simp only [show (inp.withRate q).interstage = none from hi]
            rw [hcmp]
            obtain ⟨-, -, -, -, -, c6, -⟩ := C68_status (inp.withRate q) s f.pin r''.pout none hs0.1
              (by rw [d5]; exact ht) (by simp) ht
              (by intro t h; rw [show (inp.withRate q).interstage = inp.interstage from rfl, hi] at h; cases h)
            refine c6.mpr ⟨?_, hnr, ?_⟩
            · unfold NotAbove
              linarith [hs0.1, hs0.2]
            · intro t _ _ h; cases h
          · rw [d2]; exact hap
    · cases h

/-! ## Upstream choke and power -/

/-- **Upstream choke.** The mass rate that is found is one in a thousand below what the root finder returns along the highest
speed; or nothing; or one at which the evaluation succeeds with all stages within capacity. -/
theorem C72_upstream (p : Plant σ) (root : Root) (densityOf : σ → ℚ → ℚ) (st : State) (inp : Input)
    (hlarge : 0 ≤ largest p inp) (hc : p.control = some .upstreamChoke) (m : ℚ)
    (h : p.maxMass root densityOf st inp = .ok (.inr m)) :
    (∃ b, m = root (least p inp) b
        (fun x => (p.calc p.maxSpeed st.mods (inp.withRate (x * p.std))).pout - inp.discharge) * (1 - tol) ∧
      (p.calc p.maxSpeed st.mods (inp.withRate (b * p.std))).pout ≤ inp.discharge ∧
      inp.discharge ≤ (p.calc p.maxSpeed st.mods (inp.withRate (least p inp * p.std))).pout) ∨
    m = 0 ∨
    ∃ r st', p.evaluate root densityOf none none st (inp.withRate (m * p.std)) = .ok (r, st') ∧
      ∀ r', r = some r' → r'.within = true := by
  obtain ⟨hi, -, -, -, h4, -⟩ := C27.C27_maximize tol 20 0 (largest p inp)
    (fun x => p.takes root densityOf st (inp.withRate (x * p.std))) hlarge (by norm_num [tol]) (by norm_num [tol])
  unfold Plant.maxMass at h
  simp only [hc] at h
  split at h
  · cases h
  · split at h
    · cases h
    · rename_i hp
      push Not at hp
      split at h
      · rename_i hd
        cases h
        exact Or.inl ⟨_, rfl, hd, hp⟩
      · rw [if_neg (by decide), if_pos trivial] at h
        simp only [Except.ok.injEq, Sum.inr.injEq] at h
        right
        subst h
        rcases h4 with h4 | h4
        · exact Or.inl h4
        · right
          unfold Plant.takes at h4
          split at h4
          · rename_i r st' he
            exact ⟨some r, st', he, fun r' hr => by cases hr; exact h4⟩
          · rename_i st' he
            exact ⟨none, st', he, fun r' hr => by cases hr⟩
          · cases h4

/-- **Anti-surge control.** For a train without choke, the mass rate that is found is one in a thousand below what the root
finder returns along the highest speed, or one in a thousand below the flow `x` at a speed `v` in the range of the train that
the root finder returns along the limit of the chart. The latter is within capacity at that speed, or it is the least flow of
the first stage, and just above it is the largest flow of the first stage or a flow out of capacity. It is the flow of the
first stage that counts, whatever enters and leaves behind it. -/
theorem C72_wall (p : Plant σ) (root : Root) (hroot : Inside root) (densityOf : σ → ℚ → ℚ) (st : State) (inp : Input)
    (hov : p.minSpeed ≤ p.maxSpeed) (hd : p.control ≠ some .downstreamChoke) (hu : p.control ≠ some .upstreamChoke)
    (hfirst : ∀ v x, ((p.calc v st.mods (inp.withRate (x * p.std))).stages.head?.map (·.mass)) = some x)
    (hle : ∀ v, p.first (·.minRate v) * p.density inp.suction ≤ p.first (·.maxRate v) * p.density inp.suction) (m : ℚ)
    (h : p.maxMass root densityOf st inp = .ok (.inr m)) :
    let at_ := fun v x => p.calc v st.mods (inp.withRate (x * p.std))
    (∃ b, m = root (least p inp) b (fun x => (at_ p.maxSpeed x).pout - inp.discharge) * (1 - tol) ∧
      (at_ p.maxSpeed b).pout ≤ inp.discharge ∧ inp.discharge ≤ (at_ p.maxSpeed (least p inp)).pout) ∨
    ∃ v x top, m = x * (1 - tol) ∧ p.minSpeed ≤ v ∧ v ≤ p.maxSpeed ∧
      (x = p.first (·.minRate v) * p.density inp.suction ∨ (at_ v x).within = true) ∧ x ≤ top ∧
      (top = p.first (·.maxRate v) * p.density inp.suction ∨ (at_ v top).within = false) ∧
      top ≤ p.first (·.maxRate v) * p.density inp.suction ∧
      (top - x ≤ tol * max |x| |top| ∨ top - x =
        (p.first (·.maxRate v) * p.density inp.suction - p.first (·.minRate v) * p.density inp.suction) / 2 ^ 21) := by
  intro at_
  unfold Plant.maxMass at h
  simp only [hd, hu, if_false] at h
  split at h
  · cases h
  · split at h
    · cases h
    · rename_i hp
      push Not at hp
      split at h
      · rename_i hd
        cases h
        exact Or.inl ⟨_, rfl, hd, hp⟩
      · split at h
        · simp only [Except.ok.injEq, Sum.inr.injEq] at h
          right
          generalize hv : root p.minSpeed p.maxSpeed (fun x => (p.stoneWall st.mods inp x).pout - inp.discharge) = v at h
          obtain ⟨v1, v2⟩ := hroot p.minSpeed p.maxSpeed (fun x => (p.stoneWall st.mods inp x).pout - inp.discharge) hov
          rw [hv] at v1 v2
          obtain ⟨top, -, m2, m3, m4, m5, m6⟩ := C27.C27_maximize tol 20 (p.first (·.minRate v) * p.density inp.suction)
            (p.first (·.maxRate v) * p.density inp.suction)
            (fun x => (at_ v x).within) (hle v) (by norm_num [tol]) (by norm_num [tol])
          unfold Plant.stoneWall at h
          simp only at h
          rw [hfirst] at h
          exact ⟨v, _, top, h.symm, v1, v2, m4, m2, m5, m3, m6⟩
        · split at h
          · cases h
          · cases h

/-- **Power limit.** If the search for the power converges, the power at the rate that is announced is no more than the
limit. -/
theorem C72_power (p : Plant σ) (root : Root) (densityOf : σ → ℚ → ℚ) (st : State) (inp : Input) (limit : ℚ)
    (hl : p.maxPower = some limit) (hl0 : limit ≠ 0) (q : ℚ)
    (hconv : ∀ r st' mass w, p.evaluate root densityOf none none st (inp.withRate eps) = .ok (some r, st') → r.power ≤ limit →
      p.powerAt root densityOf st (inp.withRate (mass * p.std)) = .ok w → limit < w →
      ∃ u, p.powerAt root densityOf st (inp.withRate (root ((r.stages.head?.map (·.massAsv)).getD 0) mass (fun x =>
        match p.powerAt root densityOf st (inp.withRate (x * p.std)) with
        | .ok v => v - limit * (1 - tol)
        | .error _ => 0) * p.std)) = .ok u ∧ u - limit * (1 - tol) ≤ limit * tol)
    (h : p.maxRate root densityOf st inp = .ok q) :
    q = 0 ∨ ∃ u, p.powerAt root densityOf st (inp.withRate q) = .ok u ∧ u ≤ limit := by
  unfold Plant.maxRate at h
  obtain ⟨found, f1, f2⟩ := bind_ok h
  cases found with
  | inl rate =>
    left
    cases f2
    -- only nothing is returned early
    unfold Plant.maxMass at f1
    simp only at f1
    split at f1
    · cases f1; rfl
    · split at f1
      · cases f1; rfl
      · split at f1
        · cases f1
        · split at f1
          · cases f1
          · split at f1
            · cases f1
            · split at f1
              · cases f1
              · split at f1
                · cases f1; rfl
                · cases f1
  | inr mass =>
    simp only [hl, if_neg hl0] at f2
    obtain ⟨w, w1, w2⟩ := bind_ok f2
    split at w2
    · rename_i hw
      obtain ⟨⟨o, st'⟩, e1, e2⟩ := bind_ok w2
      cases o with
      | none => cases e2
      | some r =>
        simp only at e2
        split at e2
        · cases e2; exact Or.inl rfl
        · rename_i hr
          cases e2
          obtain ⟨u, u1, u2⟩ := hconv r st' mass w e1 (not_lt.mp hr) w1 hw
          exact Or.inr ⟨u, u1, by linarith⟩
    · rename_i hw
      cases w2
      exact Or.inr ⟨w, w1, not_lt.mp hw⟩

/-! ## History -/

/-- The settings that an evaluation leaves behind. -/
theorem left_fresh (p : Plant σ) (root : Root) (densityOf : σ → ℚ → ℚ) (up down : Option Control) (st st' : State)
    (inp : Input) (hi : inp.interstage = none)
    (hc : p.control = none ∨ p.control = some .downstreamChoke ∨ p.control = some .upstreamChoke) (r : Option (Res σ))
    (h : p.evaluate root densityOf up down st inp = .ok (r, st')) : st'.mods = p.fresh := by
  unfold Plant.evaluate at h
  simp only [hi] at h
  split at h
  · cases h
  · split at h
    · split at h
      · cases h; rfl
      · split at h
        · cases h; rfl
        · rcases hc with hc | hc | hc
          · simp only [hc] at h
            cases h; rfl
          · simp only [hc] at h
            obtain ⟨⟨r', m'⟩, h1, h2⟩ := bind_ok h
            cases h2
            unfold Plant.controlled at h1
            simp only [hc] at h1
            obtain ⟨r'', -, h4⟩ := bind_ok h1
            cases h4
            rfl
          · simp only [hc] at h
            obtain ⟨⟨r', m'⟩, h1, h2⟩ := bind_ok h
            cases h2
            unfold Plant.controlled at h1
            simp only [hc] at h1
            obtain ⟨r'', -, h4⟩ := bind_ok h1
            cases h4
            rfl
    · cases h; rfl

theorem bind_fst {α β γ : Type} {x y : Except Err (α × β)} (h : x.map Prod.fst = y.map Prod.fst) (g : α → Except Err γ) :
    (x >>= fun a => g a.1) = (y >>= fun a => g a.1) := by
  cases x with
  | error e =>
    cases y with
    | error e' => cases h; rfl
    | ok b => cases h
  | ok a =>
    cases y with
    | error e' => cases h
    | ok b =>
      have : a.1 = b.1 := by
        simpa [Except.map] using h
      show g a.1 = g b.1
      rw [this]

theorem power_state (p : Plant σ) (root : Root) (densityOf : σ → ℚ → ℚ) (st st' : State) :
    p.powerAt root densityOf st = p.powerAt root densityOf st' := by
  funext inp
  exact bind_fst (C69_step p root densityOf none none st st' inp) (fun r => pure ((r.map (·.power)).getD 0))

theorem mass_state (p : Plant σ) (root : Root) (densityOf : σ → ℚ → ℚ) (st st' : State) (hm : st.mods = st'.mods)
    (inp : Input) : p.maxMass root densityOf st inp = p.maxMass root densityOf st' inp := by
  have e : p.takes root densityOf st = p.takes root densityOf st' := by
    funext i
    unfold Plant.takes
    have := C69_step p root densityOf none none st st' i
    cases h1 : p.evaluate root densityOf none none st i with
    | error e1 =>
      cases h2 : p.evaluate root densityOf none none st' i with
      | error e2 => rfl
      | ok b => rw [h1, h2] at this; cases this
    | ok a =>
      cases h2 : p.evaluate root densityOf none none st' i with
      | error e2 => rw [h1, h2] at this; cases this
      | ok b =>
        rw [h1, h2] at this
        obtain ⟨a1, a2⟩ := a
        obtain ⟨b1, b2⟩ := b
        have : a1 = b1 := by simpa [Except.map] using this
        subst this
        cases a1 <;> rfl
  unfold Plant.maxMass
  simp only [hm, e]

/-- The maximum rate depends on the history only through the settings. -/
theorem rate_state (p : Plant σ) (root : Root) (densityOf : σ → ℚ → ℚ) (st st' : State) (hm : st.mods = st'.mods)
    (inp : Input) : p.maxRate root densityOf st inp = p.maxRate root densityOf st' inp := by
  unfold Plant.maxRate
  rw [mass_state p root densityOf st st' hm inp, power_state p root densityOf st st']
  congr 1
  funext found
  cases found with
  | inl r => rfl
  | inr mass =>
    simp only
    cases p.maxPower with
    | none => rfl
    | some limit =>
      simp only
      split
      · rfl
      · congr 1
        funext w
        split
        · have := C69_step p root densityOf none none st st' (inp.withRate eps)
          cases h1 : p.evaluate root densityOf none none st (inp.withRate eps) with
          | error e1 =>
            cases h2 : p.evaluate root densityOf none none st' (inp.withRate eps) with
            | error e2 => rw [h1, h2] at this; cases this; rfl
            | ok b => rw [h1, h2] at this; cases this
          | ok a =>
            cases h2 : p.evaluate root densityOf none none st' (inp.withRate eps) with
            | error e2 => rw [h1, h2] at this; cases this
            | ok b =>
              rw [h1, h2] at this
              obtain ⟨a1, a2⟩ := a
              obtain ⟨b1, b2⟩ := b
              have : a1 = b1 := by simpa [Except.map] using this
              subst this
              rfl
        · rfl

/-- **Chokes and no control.** For a train without pressure control or with a choke, the maximum rate is the same whatever
time steps were evaluated before. -/
theorem C72_history (p : Plant σ) (root : Root) (densityOf : σ → ℚ → ℚ) (up down : Option Control) (st st' : State)
    (hst : st.mods = p.fresh)
    (hc : p.control = none ∨ p.control = some .downstreamChoke ∨ p.control = some .upstreamChoke)
    (steps : List Input) (hi : ∀ i ∈ steps, i.interstage = none) (rs : List (Option (Res σ)))
    (h : p.evaluateAll root densityOf up down st steps = .ok (rs, st')) (inp : Input) :
    p.maxRate root densityOf st' inp = p.maxRate root densityOf st inp := by
  apply rate_state
  rw [hst]
  clear inp
  induction steps generalizing st rs with
  | nil => cases h; exact hst
  | cons i steps ih =>
    unfold Plant.evaluateAll at h
    obtain ⟨⟨r, s1⟩, h1, h2⟩ := bind_ok h
    obtain ⟨⟨rs', s2⟩, h3, h4⟩ := bind_ok h2
    cases h4
    exact ih s1 (left_fresh p root densityOf up down st s1 i (hi i (by simp)) hc r h1) (fun j hj => hi j (by simp [hj])) rs' h3

/-- A train of one stage with anti-surge control. -/
def valves : Plant (ℚ × ℚ) := plant [low 0 0] .individualRate

/-- **Anti-surge control.** For a train with anti-surge control, the maximum rate depends on what was evaluated before: the
settings of the valves from the last evaluation are still there. -/
theorem C72_history_matters : ∃ (p : Plant (ℚ × ℚ)) (step inp : Input) (r : Option (Res (ℚ × ℚ))) (st' : State) (a b : ℚ),
    p.evaluate bisect (fun _ _ => 1) none none ⟨none, p.fresh⟩ step = .ok (r, st') ∧
    p.maxRate bisect (fun _ _ => 1) ⟨none, p.fresh⟩ inp = .ok a ∧ p.maxRate bisect (fun _ _ => 1) st' inp = .ok b ∧
    b < a - 1 := by
  have h : (valves.evaluate bisect (fun _ _ => 1) none none ⟨none, valves.fresh⟩ ⟨1, 2, none, [5]⟩).toOption.map
      (fun x => ((valves.maxRate bisect (fun _ _ => 1) ⟨none, valves.fresh⟩ ⟨1, 2, none, [eps]⟩).toOption.map fun a =>
        (valves.maxRate bisect (fun _ _ => 1) x.2 ⟨1, 2, none, [eps]⟩).toOption.map fun b => decide (b < a - 1))) =
      some (some (some true)) := by decide +kernel
  cases h1 : valves.evaluate bisect (fun _ _ => 1) none none ⟨none, valves.fresh⟩ ⟨1, 2, none, [5]⟩ with
  | error e => rw [h1] at h; cases h
  | ok x =>
    cases h2 : valves.maxRate bisect (fun _ _ => 1) ⟨none, valves.fresh⟩ ⟨1, 2, none, [eps]⟩ with
    | error e => rw [h1, h2] at h; cases h
    | ok a =>
      cases h3 : valves.maxRate bisect (fun _ _ => 1) x.2 ⟨1, 2, none, [eps]⟩ with
      | error e => rw [h1, h2] at h; simp only [Except.toOption, Option.map_some, h3] at h; cases h
      | ok b =>
        rw [h1, h2] at h
        simp only [Except.toOption, Option.map_some, h3, Option.some.injEq, decide_eq_true_eq] at h
        exact ⟨valves, _, _, x.1, x.2, a, b, h1, h2, h3, h⟩

/-- A wide stage ahead of a narrow one. -/
def wide : StageP (ℚ × ℚ) := { low 0 0 with minRate := fun v => 8 * v }
def narrow : StageP (ℚ × ℚ) :=
  { low 0 0 with run := fun v m r x =>
      { (low 0 0).run v m r x with area := if x.2 ≤ 5 * v then .internal else .aboveFlow, valid := decide (x.2 ≤ 5 * v) } }

/-- **Nothing, although there is something.** The search starts at the least flow of the first stage. If that is too much for
another stage, the maximum rate is 0, although the train takes lower rates (the first stage recirculates). -/
theorem C72_zero_taken : (plant [wide, narrow] .downstreamChoke).maxRate bisect (fun _ _ => 1)
      ⟨none, (plant [wide, narrow] .downstreamChoke).fresh⟩ ⟨1, 5, none, [eps]⟩ = .ok 0 ∧
    ∃ r st', (plant [wide, narrow] .downstreamChoke).evaluate bisect (fun _ _ => 1) none none
      ⟨none, (plant [wide, narrow] .downstreamChoke).fresh⟩ ⟨1, 5, none, [10]⟩ = .ok (some r, st') ∧ r.isValid = true := by
  constructor
  · have h : ((plant [wide, narrow] .downstreamChoke).maxRate bisect (fun _ _ => 1)
        ⟨none, (plant [wide, narrow] .downstreamChoke).fresh⟩ ⟨1, 5, none, [eps]⟩).toOption = some 0 := by decide +kernel
    cases h1 : (plant [wide, narrow] .downstreamChoke).maxRate bisect (fun _ _ => 1)
        ⟨none, (plant [wide, narrow] .downstreamChoke).fresh⟩ ⟨1, 5, none, [eps]⟩ with
    | error e => rw [h1] at h; cases h
    | ok x => rw [h1] at h; cases h; rfl
  · have h : ((plant [wide, narrow] .downstreamChoke).evaluate bisect (fun _ _ => 1) none none
        ⟨none, (plant [wide, narrow] .downstreamChoke).fresh⟩ ⟨1, 5, none, [10]⟩).toOption.map (fun x => x.1.map (·.isValid)) =
        some (some true) := by decide +kernel
    cases h1 : (plant [wide, narrow] .downstreamChoke).evaluate bisect (fun _ _ => 1) none none
        ⟨none, (plant [wide, narrow] .downstreamChoke).fresh⟩ ⟨1, 5, none, [10]⟩ with
    | error e => rw [h1] at h; cases h
    | ok x =>
      obtain ⟨o, st'⟩ := x
      cases o with
      | none => rw [h1] at h; cases h
      | some r =>
        rw [h1] at h
        simp only [Except.toOption, Option.map_some, Option.some.injEq] at h
        exact ⟨r, st', rfl, h⟩

/-! ## Examples -/

/-- A root finder that is exact for straight lines. -/
def secant : Root := fun lo hi f => if f lo = f hi then lo else max lo (min hi (lo - f lo * (hi - lo) / (f hi - f lo)))

theorem secant_inside : Inside secant := by
  intro lo hi f h
  unfold secant
  split
  · exact ⟨le_refl _, h⟩
  · exact ⟨le_max_left _ _, max_le h (min_le_left _ _)⟩

theorem secant_line (a b lo hi : ℚ) (hle : lo ≤ hi)
    (h : a * lo + b ≤ 0 ∧ 0 ≤ a * hi + b ∨ 0 ≤ a * lo + b ∧ a * hi + b ≤ 0) :
    a * secant lo hi (fun x => a * x + b) + b = 0 := by
  unfold secant
  simp only
  split
  · rename_i he
    rcases h with h | h <;> linarith [h.1, h.2]
  · rename_i he
    have ha : a ≠ 0 := by rintro rfl; simp at he
    have hd : hi - lo ≠ 0 := by
      intro hc
      apply he
      rw [show hi = lo by linarith]
    have hz : lo - (a * lo + b) * (hi - lo) / (a * hi + b - (a * lo + b)) = -b / a := by
      have : a * hi + b - (a * lo + b) = a * (hi - lo) := by ring
      rw [this]
      field_simp
      ring
    rw [hz]
    have hb : a * (-b / a) = -b := by field_simp
    have h1 : lo ≤ -b / a ∧ -b / a ≤ hi := by
      rcases lt_or_gt_of_ne ha with hn | hp
      · rw [le_div_iff_of_neg hn, div_le_iff_of_neg hn]
        rcases h with h | h
        · have := mul_le_mul_of_nonpos_left hle (le_of_lt hn)
          constructor <;> linarith [h.1, h.2]
        · constructor <;> linarith [h.1, h.2]
      · rw [le_div_iff₀ hp, div_le_iff₀ hp]
        rcases h with h | h
        · constructor <;> linarith [h.1, h.2]
        · have := mul_le_mul_of_nonneg_left hle (le_of_lt hp)
          constructor <;> linarith [h.1, h.2]
    rw [min_eq_right h1.2, max_eq_right h1.1, hb]
    ring

/-- A train of one stage with a downstream choke. -/
def single : Plant (ℚ × ℚ) := plant [low 0 0] .downstreamChoke

def wish : Input := ⟨1, 13 / 4, none, [eps]⟩

theorem single_run (v q : ℚ) : (run single wish v q).stages =
    [⟨1, 1 * (v + 1) - (q - 0 + 0) / 10, 1, q - 0 + 0, max (q - 0 + 0) v, (q - 0 + 0) * v,
      if q - 0 + 0 ≤ 10 * v then .internal else .aboveFlow, decide (q - 0 + 0 ≤ 10 * v),
      (1 * (v + 1) - (q - 0 + 0) / 10, q - 0 + 0)⟩] := rfl

theorem single_pout (v q : ℚ) : (run single wish v q).pout = v + 1 - q / 10 := by
  have : (run single wish v q).pout = 1 * (v + 1) - (q - 0 + 0) / 10 := rfl
  rw [this]; ring

theorem single_within (v q : ℚ) : (run single wish v q).within = true ↔ q ≤ 10 * v := by
  unfold Res.within
  rw [single_run]
  simp [Stg.within]

theorem single_usual : Usual single wish := by
  constructor
  · intro v q q' h; rw [single_within, single_within]; intro; linarith
  · intro v q q' h; rw [single_pout, single_pout]; linarith
  · intro v w q h; rw [single_within, single_within]; intro; linarith
  · intro v w q h; rw [single_pout, single_pout]; linarith

example : (single.maxRate secant (fun _ _ => 1) ⟨none, single.fresh⟩ wish).toOption = some (7.4925) := by decide +kernel

/-- All hypotheses of `C72_taken` hold for this train. -/
example : ∃ r st', single.evaluate secant (fun _ _ => 1) none none ⟨none, single.fresh⟩ (wish.withRate 7.4925) =
    .ok (some r, st') ∧ r.isValid = true ∧ Near r.pout (13 / 4) := by
  have h : (single.evaluate secant (fun _ _ => 1) none none ⟨none, single.fresh⟩ (wish.withRate 7.4925)).toOption.map
      (fun x => x.1.isSome) = some true := by decide +kernel
  have hq : (single.maxRate secant (fun _ _ => 1) ⟨none, single.fresh⟩ wish).toOption = some (7.4925) := by decide +kernel
  cases h1 : single.evaluate secant (fun _ _ => 1) none none ⟨none, single.fresh⟩ (wish.withRate 7.4925) with
  | error e => rw [h1] at h; cases h
  | ok x =>
    obtain ⟨o, st'⟩ := x
    cases o with
    | none => rw [h1] at h; cases h
    | some r =>
      cases h2 : single.maxRate secant (fun _ _ => 1) ⟨none, single.fresh⟩ wish with
      | error e => rw [h2] at hq; cases hq
      | ok q =>
        rw [h2] at hq
        simp only [Except.toOption, Option.some.injEq] at hq
        subst hq
        have hmax : single.maxSpeed = 3 := rfl
        have hmin : single.minSpeed = 2 := rfl
        have hleast : least single wish = 3 := by decide +kernel
        have hlarge : largest single wish = 30 := by decide +kernel
        have hstd : single.std = 1 := rfl
        have hdis : wish.discharge = 13 / 4 := rfl
        refine ⟨r, st', rfl, C72_taken single secant secant_inside (fun _ _ => 1) none wish none none ⟨none, single.fresh⟩ st'
          single_usual (by decide +kernel) (by rw [hmax, hmin]; norm_num) (by rw [hstd]; norm_num)
          (by rw [hleast]; norm_num) (by rw [hleast, hlarge]; norm_num) rfl rfl rfl rfl (by rw [hdis]; norm_num)
          (by show (0 : ℚ) < 1; norm_num) ?_ ?_ ?_ 7.4925 ?_ h2 r h1 (by norm_num)⟩
        · intro v q hw s hs
          rw [single_within] at hw
          rw [single_run] at hs
          simp only [List.mem_singleton] at hs
          subst hs
          constructor
          · show (0 : ℚ) < 1; norm_num
          · show (0 : ℚ) < 1 * (v + 1) - (q - 0 + 0) / 10; linarith
        · intro v q f hf
          rw [single_run] at hf
          cases hf
          exact le_refl _
        · intro b hb1 hb2 h3 h4
          rw [hmax, hdis, hstd, hleast] at *
          simp only [single_pout] at *
          have e : (fun y : ℚ => 3 + 1 - y * 1 / 10 - 13 / 4) = fun y => (-1 / 10) * y + 3 / 4 := by funext y; ring
          have := secant_line (-1 / 10) (3 / 4) 3 b hb1 (Or.inr ⟨by norm_num, by linarith⟩)
          rw [e, abs_le]
          constructor <;> linarith
        · intro c c1 c2 h3 h4
          rw [hmax, hdis] at *
          simp only [single_pout] at *
          have e : (fun x : ℚ => x + 1 - 7.4925 / 10 - 13 / 4) = fun x => 1 * x + (1 - 7.4925 / 10 - 13 / 4) := by
            funext x; ring
          have := secant_line 1 (1 - 7.4925 / 10 - 13 / 4) c 3 c2 (Or.inl ⟨by linarith, by linarith⟩)
          rw [e, abs_le]
          constructor <;> linarith

/-- A train without choke; gas is taken out between the stages. The mass rate is that of the first stage. -/
example : ((plant [low 0 0, low 1 0] .individualRate).maxMass bisect (fun _ _ => 1)
    ⟨none, (plant [low 0 0, low 1 0] .individualRate).fresh⟩ ⟨10, 100, none, [5, 2]⟩).toOption.map
      (fun x => match x with
        | .inr m => decide (23 < m ∧ m < 231 / 10)
        | .inl _ => false) = some true := by decide +kernel

end Verif.C72
