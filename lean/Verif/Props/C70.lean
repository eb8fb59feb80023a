import Verif.Props.C69

/-!
# C70: pressure control of a compressor train
-/

namespace Verif.C70
open Verif.Train Verif.Time Verif.Search Verif.C68 Verif.C69

variable {σ : Type}

/-! ## Lemmas -/

theorem bind_ok {α β : Type} {x : Except Err α} {f : α → Except Err β} {b : β} (h : (x >>= f) = .ok b) :
    ∃ a, x = .ok a ∧ f a = .ok b := by
  cases x with
  | error e => cases h
  | ok a => exact ⟨a, rfl, h⟩

theorem run_length (rates : ℕ → List ℚ × List ℚ) (v : ℚ) (k : ℕ) (l : List (StageP σ)) (m : List Mod) (x : σ) :
    (runStages v rates k l m x).length = l.length := by
  induction l generalizing k m x with
  | nil => rfl
  | cons s l ih => simp [runStages, ih]

theorem calc_length (p : Plant σ) (v : ℚ) (m : List Mod) (inp : Input) :
    (p.calc v m inp).stages.length = p.stages.length := run_length _ _ _ _ _ _

theorem ends {α : Type} (l : List α) (h : l ≠ []) : ∃ a b, l.head? = some a ∧ l.getLast? = some b := by
  cases l with
  | nil => exact absurd rfl h
  | cons a l =>
    have : ((a :: l).getLast?).isSome := by simp
    obtain ⟨w, hw⟩ := Option.isSome_iff_exists.mp this
    exact ⟨a, w, rfl, hw⟩

/-- A status that compares the pressures of the result itself; the intermediate pressure is that of a stage, if any. -/
def Tells (inp : Input) (number : Option ℕ) (r : Res σ) : Prop :=
  ∃ first s i, r.stages.head? = some first ∧ (s = first.pin ∨ s = r.pin) ∧
    r.status = comparePressures inp s first.pin r.pout i ∧
    (i = none ∨ ∃ k a, number = some k ∧ a ∈ r.stages ∧ (1 ≤ k → r.stages[k - 1]? = some a) ∧ i = some a.pout)

theorem calc_tells (p : Plant σ) (hne : p.stages ≠ []) (v : ℚ) (m : List Mod) (inp : Input) (number : Option ℕ) :
    Tells inp number (p.calc v m inp) := by
  have hl : (p.calc v m inp).stages ≠ [] := by
    intro h
    have := calc_length p v m inp
    rw [h] at this
    exact hne (List.length_eq_zero_iff.mp this.symm)
  obtain ⟨f, l, hf, hla⟩ := ends _ hl
  refine ⟨f, f.pin, none, hf, Or.inl rfl, ?_, Or.inl rfl⟩
  have h1 : (p.calc v m inp).status = checkStages inp (p.calc v m inp).stages := rfl
  have h2 : (p.calc v m inp).pout = (((p.calc v m inp).stages.getLast?).map (·.pout)).getD inp.suction := rfl
  rw [h1, h2, checkStages, hf, hla]
  rfl

theorem check_tells (number : Option ℕ) (inp : Input) (r : Res σ) (s : Status) (h : checkTrain number inp r = .ok s) :
    Tells inp number { r with status := s } := by
  unfold checkTrain at h
  cases hf : r.stages.head? with
  | none => rw [hf] at h; cases h
  | some f =>
    rw [hf] at h
    simp only at h
    cases number with
    | none =>
      simp only [Except.ok.injEq] at h
      exact ⟨f, r.pin, none, hf, Or.inr rfl, h.symm, Or.inl rfl⟩
    | some n =>
      simp only at h
      split at h
      · cases h
      · rename_i a ha
        simp only [Except.ok.injEq] at h
        refine ⟨f, r.pin, some a.pout, hf, Or.inr rfl, h.symm, Or.inr ⟨n, a, rfl, ?_, ?_, rfl⟩⟩
        · split at ha
          · exact List.mem_of_getLast? ha
          · exact List.mem_of_getElem? ha
        · intro hn
          rw [if_neg (by omega)] at ha
          exact ha

theorem targetStages_length (root : Root) (massOf : σ → ℚ) (v ratio : ℚ) (l : List (StageP σ)) (pr : ℚ) (x : σ) :
    (targetStages root massOf v ratio l pr x).length = l.length := by
  induction l generalizing pr x with
  | nil => rfl
  | cons s l ih => simp [targetStages, ih]

theorem compare_withRate (inp : Input) (q a b c : ℚ) (i : Option ℚ) :
    comparePressures (inp.withRate q) a b c i = comparePressures inp a b c i := rfl

theorem tells_withRate {inp : Input} {q : ℚ} {number : Option ℕ} {r : Res σ} (h : Tells (inp.withRate q) number r) :
    Tells inp number r := h

/-- What holds of a result under pressure control. -/
def Good (p : Plant σ) (v : ℚ) (inp : Input) (r : Res σ) : Prop :=
  Tells inp p.interstage r ∧ r.pin = inp.suction ∧ r.speed = v ∧ r.stages.length = p.stages.length

theorem calc_good (p : Plant σ) (hne : p.stages ≠ []) (v : ℚ) (m : List Mod) (inp : Input) : Good p v inp (p.calc v m inp) :=
  ⟨calc_tells p hne v m inp _, rfl, rfl, calc_length _ _ _ _⟩

theorem calc_good_rate (p : Plant σ) (hne : p.stages ≠ []) (v : ℚ) (m : List Mod) (inp : Input) (q : ℚ) :
    Good p v inp (p.calc v m (inp.withRate q)) := by
  obtain ⟨a, b, c, d⟩ := calc_good p hne v m (inp.withRate q)
  exact ⟨tells_withRate a, b, c, d⟩

theorem upstream_ok (p : Plant σ) (root : Root) (v : ℚ) (m : List Mod) (inp : Input) (r : Res σ)
    (h : p.upstream root v m inp = .ok r) :
    ∃ ps s, ps = root (eps + ((p.stages.head?).map (·.drop)).getD 0) inp.discharge
        (fun x => (p.calc v m { inp with suction := x }).pout - inp.discharge) ∧
      checkTrain p.interstage inp { p.calc v m { inp with suction := ps } with pin := inp.suction } = .ok s ∧
      r = { p.calc v m { inp with suction := ps } with pin := inp.suction, status := s } := by
  unfold Plant.upstream at h
  obtain ⟨s, h1, h2⟩ := bind_ok h
  cases h2
  exact ⟨_, s, rfl, h1, rfl⟩

theorem upstream_good (p : Plant σ) (root : Root) (v : ℚ) (m : List Mod) (inp : Input) (r : Res σ)
    (h : p.upstream root v m inp = .ok r) : Good p v inp r := by
  unfold Plant.upstream at h
  obtain ⟨s, h1, h2⟩ := bind_ok h
  cases h2
  refine ⟨?_, rfl, rfl, calc_length _ _ _ _⟩
  exact check_tells _ _ _ _ h1

theorem downstream_good (p : Plant σ) (hne : p.stages ≠ []) (root : Root) (v : ℚ) (m : List Mod) (inp : Input) (r : Res σ)
    (h : p.downstream root v m inp = .ok r) : Good p v inp r := by
  unfold Plant.downstream at h
  obtain ⟨r0, h1, h2⟩ := bind_ok h
  have g0 : Good p v inp r0 := by
    unfold Plant.limited at h1
    cases hm : p.maxDischarge with
    | none =>
      rw [hm] at h1
      cases h1
      exact calc_good p hne v m inp
    | some l =>
      rw [hm] at h1
      simp only at h1
      split at h1
      · obtain ⟨n, h3, h4⟩ := bind_ok h1
        obtain ⟨s, h5, h6⟩ := bind_ok h4
        cases h6
        exact ⟨check_tells _ _ _ _ h5, rfl, rfl, (upstream_good p root v m _ n h3).2.2.2⟩
      · cases h1
        exact calc_good p hne v m inp
  split at h2
  · obtain ⟨s, h3, h4⟩ := bind_ok h2
    cases h4
    exact ⟨check_tells _ _ _ _ h3, g0.2.1, g0.2.2.1, g0.2.2.2⟩
  · cases h2
    exact g0

theorem common_steps (p : Plant σ) (root : Root) (v : ℚ) (inp : Input) :
    p.commonAsv root v inp = (p.calc v p.fresh (inp.withRate (inp.rates.headD 0 / p.std * p.std)), p.fresh) ∨
    ∃ lo hi, p.commonAsv root v inp = p.commonFinish root v inp lo hi := by
  unfold Plant.commonAsv
  generalize p.commonFinish root v inp = fin
  dsimp only
  split
  · exact Or.inl rfl
  · split
    · split
      · exact Or.inr ⟨_, _, rfl⟩
      · exact Or.inr ⟨_, _, rfl⟩
    · split
      · exact Or.inr ⟨_, _, rfl⟩
      · split
        · exact Or.inl rfl
        · exact Or.inr ⟨_, _, rfl⟩

theorem common_cases (p : Plant σ) (root : Root) (v : ℚ) (inp : Input) :
    (∃ a, p.commonAsv root v inp = (p.calc v (p.same (.mass a)) inp, p.same (.mass a))) ∨
    p.commonAsv root v inp = (p.calc v p.fresh (inp.withRate (inp.rates.headD 0 / p.std * p.std)), p.fresh) ∨
    (∃ q, p.commonAsv root v inp = (p.calc v p.fresh (inp.withRate q), p.fresh)) ∧
      (p.commonAsv root v inp).1.pout ≠ inp.discharge := by
  rcases common_steps p root v inp with h | ⟨lo, hi, h⟩
  · exact Or.inr (Or.inl h)
  · rw [h]
    unfold Plant.commonFinish
    dsimp only
    split
    · rename_i h1
      exact Or.inr (Or.inr ⟨⟨_, rfl⟩, ne_of_lt h1⟩)
    · split
      · rename_i h1
        exact Or.inr (Or.inr ⟨⟨_, rfl⟩, ne_of_gt h1⟩)
      · exact Or.inl ⟨_, rfl⟩

theorem controlled_good (p : Plant σ) (hne : p.stages ≠ []) (root : Root) (st : State) (inp : Input) (r : Res σ)
    (m : List Mod) (h : p.controlled root st inp = .ok (r, m)) : ∃ v, st.speed = some v ∧ Good p v inp r := by
  unfold Plant.controlled at h
  cases hv : st.speed with
  | none => rw [hv] at h; cases h
  | some v =>
    rw [hv] at h
    refine ⟨v, rfl, ?_⟩
    simp only at h
    cases hc : p.control with
    | none => rw [hc] at h; cases h
    | some c =>
      rw [hc] at h
      cases c with
      | downstreamChoke =>
        obtain ⟨r', h1, h2⟩ := bind_ok h
        cases h2
        exact downstream_good p hne root v _ inp _ h1
      | upstreamChoke =>
        obtain ⟨r', h1, h2⟩ := bind_ok h
        cases h2
        exact upstream_good p root v _ inp _ h1
      | individualRate =>
        simp only [Except.ok.injEq] at h
        have : r = (p.asvRate root v inp).1 := by rw [h]
        rw [this]
        unfold Plant.asvRate
        simp only
        split
        · exact calc_good p hne v _ inp
        · split
          · exact calc_good p hne v _ inp
          · exact calc_good p hne v _ inp
      | individualPressure =>
        simp only [Except.ok.injEq] at h
        have hr : r = (p.asvPressure root v inp).1 := by rw [h]
        have hlen : r.stages.length = p.stages.length := by
          rw [hr]; simp [Plant.asvPressure, targetStages_length]
        obtain ⟨f, l, hf, hl⟩ := ends r.stages (by
          intro he; rw [he] at hlen; exact hne (List.length_eq_zero_iff.mp hlen.symm))
        have hp : r.pout = ((r.stages.getLast?).map (·.pout)).getD inp.suction := by rw [hr]; rfl
        have hs : r.status = checkStages inp r.stages := by rw [hr]; rfl
        refine ⟨⟨f, f.pin, none, hf, Or.inl rfl, ?_, Or.inl rfl⟩, by rw [hr]; rfl, by rw [hr]; rfl, hlen⟩
        rw [hs, hp, checkStages, hf, hl]
        rfl
      | commonAsv =>
        simp only [Except.ok.injEq] at h
        have hr : r = (p.commonAsv root v inp).1 := by rw [h]
        rw [hr]
        rcases common_cases p root v inp with ⟨a, h1⟩ | h1 | ⟨⟨q, h1⟩, -⟩
        · rw [h1]; exact calc_good p hne v _ inp
        · rw [h1]; exact calc_good_rate p hne v _ inp _
        · rw [h1]; exact calc_good_rate p hne v _ inp _

/-! ## Valid results -/

/-- What a status that compares pressures says. -/
theorem tells_met {inp : Input} {number : Option ℕ} {r : Res σ} (h : Tells inp number r) (hm : r.status = .met)
    (hs : ∀ s ∈ r.stages, 0 < s.pin ∧ 0 < s.pout) (hpin : 0 < r.pin) (hpout : 0 < r.pout) (ht : 0 < inp.discharge)
    (hi : ∀ t, inp.interstage = some t → 0 < t) : Near r.pout inp.discharge := by
  obtain ⟨f, s, i, hf, hs', hst, hi'⟩ := h
  have hfp := hs f (List.mem_of_mem_head? (by rw [hf]; rfl))
  have hsp : 0 < s := by
    rcases hs' with rfl | rfl
    · exact hfp.1
    · exact hpin
  have hip : ∀ p, i = some p → 0 < p := by
    intro q hq
    rcases hi' with rfl | ⟨k, a, -, ha, -, rfl⟩
    · cases hq
    · cases hq; exact (hs a ha).2
  rw [hst] at hm
  exact ((C68_status inp s f.pin r.pout i hsp hpout hip ht hi).2.2.2.2.2.1.mp hm).2.1

/-- **Valid means on target.** Whatever the pressure control: when a train with one pressure target returns a valid result,
the discharge pressure of the result is near the target, the suction pressure is the one asked for, all stages are within
capacity, and the shaft has the speed that the result states, which all stages can have. -/
theorem C70_valid (p : Plant σ) (hne : p.stages ≠ []) (hov : p.minSpeed ≤ p.maxSpeed) (root : Root) (hroot : Inside root)
    (densityOf : σ → ℚ → ℚ) (up down : Option Control) (st st' : State) (inp : Input) (hi : inp.interstage = none) (r : Res σ)
    (h : p.evaluate root densityOf up down st inp = .ok (some r, st'))
    (hs : ∀ s ∈ r.stages, 0 < s.pin ∧ 0 < s.pout) (hpin : 0 < inp.suction) (hpout : 0 < r.pout) (ht : 0 < inp.discharge) :
    (r.pin = inp.suction ∧ Common p r.speed ∧ st'.speed = some r.speed ∧ r.stages.length = p.stages.length) ∧
    (r.isValid = true → Near r.pout inp.discharge ∧ (∀ s ∈ r.stages, ¬ Out s)) := by
  have key : Good p (p.findSpeed root p.fresh inp) inp r ∧ st'.speed = some (p.findSpeed root p.fresh inp) := by
    unfold Plant.evaluate at h
    simp only [hi] at h
    split at h
    · cases h
    · split at h
      · split at h
        · cases h; exact ⟨calc_good p hne _ _ inp, rfl⟩
        · split at h
          · cases h; exact ⟨calc_good p hne _ _ inp, rfl⟩
          · split at h
            · cases h; exact ⟨calc_good p hne _ _ inp, rfl⟩
            · obtain ⟨⟨r', m'⟩, h1, h2⟩ := bind_ok h
              cases h2
              obtain ⟨v, hv, g⟩ := controlled_good p hne root _ inp _ _ h1
              cases hv
              exact ⟨g, rfl⟩
      · cases h
  obtain ⟨⟨g1, g2, g3, g4⟩, g5⟩ := key
  have hv := (C69_search p root hroot p.fresh inp none none p.minSpeed p.maxSpeed rfl rfl hov).1
  refine ⟨⟨g2, ?_, by rw [g3]; exact g5, g4⟩, ?_⟩
  · rw [g3]; exact (C69_range p hne _).mp hv
  · intro hval
    obtain ⟨v1, v2, -⟩ := (C68_valid r).mp hval
    have hmet : r.status = .met := by
      rcases v2 with v2 | v2
      · exact v2
      · exfalso
        obtain ⟨f, s, i, hf, hs', hst, hi'⟩ := g1
        rw [v2] at hst
        unfold comparePressures at hst
        simp only [hi] at hst
        split at hst
        · cases hst
        · split at hst
          · cases hst
          · split at hst <;> cases hst
    exact ⟨tells_met g1 hmet hs (by rw [g2]; exact hpin) hpout ht (by simp [hi]), v1⟩

/-! ## Chokes -/

/-- **Downstream choke.** Without a limit on the pressure ahead of the choke, the machines run as without choke. The choke
acts when their pressure is more than one in a thousand above the target; then the pressure behind it is the target, which
is lower. -/
theorem C70_downstream (p : Plant σ) (hne : p.stages ≠ []) (root : Root) (v : ℚ) (m : List Mod) (inp : Input) (r : Res σ)
    (hm : p.maxDischarge = none) (hs : ∀ s ∈ (p.calc v m inp).stages, 0 < s.pin ∧ 0 < s.pout) (ht : 0 < inp.discharge)
    (hi : ∀ t, inp.interstage = some t → 0 < t)
    (h : p.downstream root v m inp = .ok r) :
    r.stages = (p.calc v m inp).stages ∧ r.abovePower = (p.calc v m inp).abovePower ∧
    (¬ NotAbove (p.calc v m inp).pout inp.discharge → r.pout = inp.discharge ∧ r.pout < (p.calc v m inp).pout) ∧
    (NotAbove (p.calc v m inp).pout inp.discharge → r = p.calc v m inp) := by
  have hlen := calc_length p v m inp
  obtain ⟨f, l, hf, hl⟩ := ends (p.calc v m inp).stages (by
    intro he; rw [he] at hlen; exact hne (List.length_eq_zero_iff.mp hlen.symm))
  have hfp := hs f (List.mem_of_mem_head? (by rw [hf]; rfl))
  have hlp := hs l (List.mem_of_getLast? hl)
  obtain ⟨q1, -, q3, -⟩ := C68_run p v m inp f l hf hl hfp.1 hlp.2 ht hi
  rw [← q1] at q3
  unfold Plant.downstream Plant.limited at h
  rw [hm] at h
  obtain ⟨r0, h1, h2⟩ := bind_ok h
  cases h1
  split at h2
  · rename_i hst
    have ha := q3.mp hst
    obtain ⟨s, h3, h4⟩ := bind_ok h2
    cases h4
    refine ⟨rfl, rfl, fun _ => ⟨rfl, ?_⟩, fun hn => absurd hn ha⟩
    simp only
    unfold NotAbove at ha
    push Not at ha
    linarith
  · rename_i hst
    cases h2
    refine ⟨rfl, rfl, fun hn => absurd (q3.mpr hn) hst, fun _ => rfl⟩

/-- **Limit ahead of the choke.** With a limit on the pressure ahead of a downstream choke, the last machine delivers at most
the limit, up to one in a thousand, if the search for the suction pressure converges. -/
theorem C70_limit (p : Plant σ) (root : Root) (v : ℚ) (m : List Mod) (inp : Input) (r : Res σ) (limit : ℚ)
    (hm : p.maxDischarge = some limit) (last : Stg σ) (hpos : 0 < (p.calc v m inp).pout)
    (hconv : ∀ lo, |(p.calc v m ⟨root lo limit fun x => (p.calc v m ⟨x, limit, inp.interstage, inp.rates⟩).pout - limit,
        limit, inp.interstage, inp.rates⟩).pout - limit| ≤ limit / 1001)
    (h : p.downstream root v m inp = .ok r) (hlast : r.stages.getLast? = some last) : NotAbove last.pout limit := by
  unfold Plant.downstream at h
  obtain ⟨r0, h1, h2⟩ := bind_ok h
  have hst : r.stages = r0.stages := by
    split at h2
    · obtain ⟨s, h3, h4⟩ := bind_ok h2
      cases h4
      rfl
    · cases h2; rfl
  rw [hst] at hlast
  unfold Plant.limited at h1
  rw [hm] at h1
  simp only at h1
  have out : ∀ (w : ℚ) (i : Input), (p.calc w m i).stages.getLast? = some last → (p.calc w m i).pout = last.pout := by
    intro w i hw
    have : (p.calc w m i).pout = (((p.calc w m i).stages.getLast?).map (·.pout)).getD i.suction := rfl
    rw [this, hw]; rfl
  split at h1
  · obtain ⟨n, h3, h4⟩ := bind_ok h1
    obtain ⟨s, h5, h6⟩ := bind_ok h4
    cases h6
    simp only at hlast
    unfold Plant.upstream at h3
    obtain ⟨s', h7, h8⟩ := bind_ok h3
    cases h8
    simp only at hlast
    have := out _ _ hlast
    rw [← this]
    exact (near_of_abs (hconv _)).1
  · rename_i hle
    cases h1
    rw [← out _ _ hlast]
    unfold tol at hle
    unfold NotAbove
    push Not at hle
    linarith

/-- **Never above the limit.** If the search for the suction pressure ends within `e` of its target, the last machine ahead of
the choke delivers at most `e` more than the limit: there is no other tolerance. -/
theorem C70_limit_kept (p : Plant σ) (root : Root) (v : ℚ) (m : List Mod) (inp : Input) (r : Res σ) (limit e : ℚ) (he : 0 ≤ e)
    (hm : p.maxDischarge = some limit) (last : Stg σ) (hpos : 0 ≤ (p.calc v m inp).pout)
    (hconv : ∀ lo, |(p.calc v m ⟨root lo limit fun x => (p.calc v m ⟨x, limit, inp.interstage, inp.rates⟩).pout - limit,
        limit, inp.interstage, inp.rates⟩).pout - limit| ≤ e)
    (h : p.downstream root v m inp = .ok r) (hlast : r.stages.getLast? = some last) : last.pout ≤ limit + e := by
  unfold Plant.downstream at h
  obtain ⟨r0, h1, h2⟩ := bind_ok h
  have hst : r.stages = r0.stages := by
    split at h2
    · obtain ⟨s, h3, h4⟩ := bind_ok h2
      cases h4
      rfl
    · cases h2; rfl
  rw [hst] at hlast
  unfold Plant.limited at h1
  rw [hm] at h1
  simp only at h1
  have out : ∀ (w : ℚ) (i : Input), (p.calc w m i).stages.getLast? = some last → (p.calc w m i).pout = last.pout := by
    intro w i hw
    have : (p.calc w m i).pout = (((p.calc w m i).stages.getLast?).map (·.pout)).getD i.suction := rfl
    rw [this, hw]; rfl
  split at h1
  · obtain ⟨n, h3, h4⟩ := bind_ok h1
    obtain ⟨s, h5, h6⟩ := bind_ok h4
    cases h6
    simp only at hlast
    unfold Plant.upstream at h3
    obtain ⟨s', h7, h8⟩ := bind_ok h3
    cases h8
    simp only at hlast
    rw [← out _ _ hlast]
    have := abs_le.mp (hconv (eps + ((p.stages.head?).map (·.drop)).getD 0))
    linarith [this.2]
  · rename_i hle
    cases h1
    rw [← out _ _ hlast]
    unfold tol at hle
    push Not at hle
    linarith

/-- **Upstream choke.** The result is that of the train with another pressure ahead of the first stage, at the rates asked
for, and its suction pressure is the one asked for. If the search converges, the discharge pressure is near the target, and
the status says so if and only if the first stage does not suck at more than is there. -/
theorem C70_upstream (p : Plant σ) (hne : p.stages ≠ []) (root : Root) (v : ℚ) (m : List Mod) (inp : Input) (r : Res σ)
    (hi : inp.interstage = none) (hpin : 0 < inp.suction) (ht : 0 < inp.discharge)
    (hconv : ∀ lo, |(p.calc v m { inp with suction := root lo inp.discharge fun x =>
        (p.calc v m { inp with suction := x }).pout - inp.discharge }).pout - inp.discharge| ≤ inp.discharge / 1001)
    (h : p.upstream root v m inp = .ok r) :
    ∃ ps first, r.stages = (p.calc v m { inp with suction := ps }).stages ∧ r.stages.head? = some first ∧
      r.pin = inp.suction ∧ Near r.pout inp.discharge ∧
      (r.status = .met ↔ NotAbove first.pin inp.suction) ∧ (r.status = .aboveSuction ↔ ¬ NotAbove first.pin inp.suction) := by
  obtain ⟨ps, s, hps, h1, rfl⟩ := upstream_ok p root v m inp r h
  have hn : Near (p.calc v m { inp with suction := ps }).pout inp.discharge := by rw [hps]; exact near_of_abs (hconv _)
  clear hps hconv h
  have hlen := calc_length p v m { inp with suction := ps }
  obtain ⟨f, l, hf, hl⟩ := ends (p.calc v m { inp with suction := ps }).stages (by
    intro he; rw [he] at hlen; exact hne (List.length_eq_zero_iff.mp hlen.symm))
  refine ⟨ps, f, rfl, hf, rfl, hn, ?_⟩
  have hp : 0 < (p.calc v m { inp with suction := ps }).pout := by
    have := hn.2
    unfold NotAbove at this
    by_contra hc
    push Not at hc
    nlinarith
  -- the status compares with the suction pressure asked for
  have hst : s = comparePressures inp inp.suction f.pin (p.calc v m { inp with suction := ps }).pout none := by
    have hnone : ∀ i, comparePressures inp inp.suction f.pin (p.calc v m { inp with suction := ps }).pout i =
        comparePressures inp inp.suction f.pin (p.calc v m { inp with suction := ps }).pout none := by
      intro i
      unfold comparePressures
      simp only [hi]
    unfold checkTrain at h1
    simp only [hf] at h1
    split at h1
    · simp only [Except.ok.injEq] at h1
      exact h1.symm
    · split at h1
      · cases h1
      · simp only [Except.ok.injEq] at h1
        rw [← h1]
        exact hnone _
  obtain ⟨c1, -, -, -, -, c6, -⟩ := C68_status inp inp.suction f.pin _ none hpin hp (by simp) ht (by simp [hi])
  simp only
  rw [hst]
  refine ⟨?_, c1⟩
  rw [c6]
  constructor
  · rintro ⟨a, -⟩; exact a
  · intro a; exact ⟨a, hn, by simp [C68.Inter, hi]⟩

/-! ## Anti-surge valves -/

/-- **Same fraction in all stages.** The result is that of the train at the rates asked for, with one fraction between 0 and 1
of the available capacity recirculated in every stage; the settings stay. The fraction is 0 when the flow is already too high
or the pressure too low, 1 when the pressure is too high nevertheless, and otherwise what the root finder returns. -/
theorem C70_rate (p : Plant σ) (root : Root) (hroot : Inside root) (v : ℚ) (inp : Input) :
    ∃ f, 0 ≤ f ∧ f ≤ 1 ∧ p.asvRate root v inp = (p.calc v (p.same (.fraction f)) inp, p.same (.fraction f)) ∧
      (f = 0 ∧ ((p.asvRate root v inp).1.areaStatus = .aboveFlow ∨ (p.asvRate root v inp).1.pout < inp.discharge) ∨
       f = 1 ∧ inp.discharge < (p.asvRate root v inp).1.pout ∨
       f = root 0 1 (fun x => (p.calc v (p.same (.fraction x)) inp).pout - inp.discharge) ∧
         (p.calc v (p.same (.fraction 1)) inp).pout ≤ inp.discharge ∧
         inp.discharge ≤ (p.calc v (p.same (.fraction 0)) inp).pout) := by
  unfold Plant.asvRate
  simp only
  split
  · rename_i h
    exact ⟨0, le_refl _, zero_le_one, rfl, Or.inl ⟨rfl, h⟩⟩
  · rename_i h
    push Not at h
    split
    · rename_i h'
      exact ⟨1, zero_le_one, le_refl _, rfl, Or.inr (Or.inl ⟨rfl, h'⟩)⟩
    · rename_i h'
      obtain ⟨a, b⟩ := hroot 0 1 (fun x => (p.calc v (p.same (.fraction x)) inp).pout - inp.discharge) zero_le_one
      exact ⟨_, a, b, rfl, Or.inr (Or.inr ⟨rfl, not_lt.mp h', h.2⟩)⟩

/-- **Common valve.** The result is that of the train at the rates asked for with one additional mass rate in every stage, or
at the rates asked for without, or it is at other rates and misses the target. -/
theorem C70_common (p : Plant σ) (root : Root) (v : ℚ) (inp : Input) (h0 : p.std ≠ 0) :
    (∃ a, p.commonAsv root v inp = (p.calc v (p.same (.mass a)) inp, p.same (.mass a))) ∨
    p.commonAsv root v inp = (p.calc v p.fresh (inp.withRate (inp.rates.headD 0)), p.fresh) ∨
    (∃ q, p.commonAsv root v inp = (p.calc v p.fresh (inp.withRate q), p.fresh)) ∧
      (p.commonAsv root v inp).1.pout ≠ inp.discharge := by
  have h := common_cases p root v inp
  rw [div_mul_cancel₀ _ h0] at h
  exact h

/-- Rounding to four decimals: the nearest one, and of two nearest the even one. -/
theorem round4_spec (x : ℚ) : |x * 10000 - round4 x| ≤ 1 / 2 ∧ (|x * 10000 - round4 x| = 1 / 2 → 2 ∣ round4 x) := by
  have h1 := Int.floor_le (x * 10000)
  have h2 := Int.lt_floor_add_one (x * 10000)
  unfold round4
  simp only
  generalize ⌊x * 10000⌋ = f at *
  split
  · rename_i h
    rw [abs_of_nonneg (by linarith)]
    exact ⟨h.le, fun e => by linarith⟩
  · rename_i h
    push Not at h
    split
    · rename_i h'
      push_cast
      rw [abs_of_nonpos (by linarith)]
      exact ⟨by linarith, fun e => by linarith⟩
    · rename_i h'
      push Not at h'
      have e : x * 10000 - f = 1 / 2 := le_antisymm h' h
      split
      · rename_i h3
        rw [e]
        exact ⟨by norm_num, fun _ => Int.dvd_of_emod_eq_zero h3⟩
      · rename_i h3
        push_cast
        have : x * 10000 - (f + 1) = -(1 / 2) := by linarith
        rw [this]
        exact ⟨by norm_num, fun _ => by omega⟩

/-- The machines of all stages have the mass rate of the first one, up to one in the fourth decimal. -/
def Steady (r : Res σ) : Prop := ∀ s t, r.stages.head? = some s → t ∈ r.stages → |s.massAsv - t.massAsv| ≤ 1 / 10000

theorem steady_of_constant {r : Res σ} (h : r.constant = true) : Steady r := by
  intro s t hs ht
  unfold Res.constant at h
  cases hr : r.stages with
  | nil => rw [hr] at hs; cases hs
  | cons a l =>
    rw [hr] at hs ht h
    cases hs
    have e : round4 t.massAsv = round4 s.massAsv := by
      rcases List.mem_cons.mp ht with rfl | ht
      · rfl
      · simpa using (List.all_eq_true.mp h) t ht
    have h1 := abs_le.mp (round4_spec s.massAsv).1
    have h2 := abs_le.mp (round4_spec t.massAsv).1
    rw [e] at h2
    rw [abs_le]
    constructor <;> linarith [h1.1, h1.2, h2.1, h2.2]

theorem constant_of_equal {r : Res σ} (h : ∀ s ∈ r.stages, ∀ t ∈ r.stages, s.massAsv = t.massAsv) : r.constant = true := by
  unfold Res.constant
  cases hr : r.stages with
  | nil => rfl
  | cons a l =>
    rw [hr] at h
    rw [List.all_eq_true]
    intro t ht
    simp [h t (by simp [ht]) a (by simp)]

theorem tryInc_some (ok : ℚ → Bool) : ∀ (n : ℕ) (x y : ℚ), tryInc ok n x = some y → x < 1 → ok y = true ∧ x ≤ y ∧ y < 1 := by
  intro n
  induction n with
  | zero => intro x y h; cases h
  | succ n ih =>
    intro x y h hx
    unfold tryInc at h
    split at h
    · rename_i h1
      cases h
      exact ⟨h1, le_refl _, hx⟩
    · split at h
      · cases h
      · rename_i h2
        push Not at h2
        obtain ⟨a, b, c⟩ := ih _ _ h h2
        exact ⟨a, by linarith, c⟩

theorem tryInc_none (ok : ℚ → Bool) (h : tryInc ok 10 (1 / 10) = none) (k : ℕ) (h1 : 1 ≤ k) (h9 : k ≤ 9) :
    ok (k / 10) = false := by
  by_contra hc
  rw [Bool.not_eq_false] at hc
  have step : ∀ (n j : ℕ), j + n = 9 → j < k → tryInc ok (n + 1) ((j + 1 : ℕ) / 10) = none → False := by
    intro n
    induction n with
    | zero => intro j e hj; omega
    | succ n ih =>
      intro j e hj hn
      rw [tryInc] at hn
      split at hn
      · cases hn
      · rename_i hok
        have hne : j + 1 ≠ k := by
          rintro rfl
          exact hok hc
        rw [if_neg (by
          push_cast
          have : (j : ℚ) ≤ 7 := by exact_mod_cast (by omega : j ≤ 7)
          linarith)] at hn
        refine ih (j + 1) (by omega) (by omega) ?_
        rw [← hn]
        congr 1
        push_cast
        ring
  exact step 9 0 (by norm_num) (by omega) (by simpa using h)

/-- **What the common valve recirculates.** Suppose that the rate asked for and the least flow of the first machine are below
its largest flow. Then one of these is the case.

- In every stage, `a` is recirculated on top of the rate asked for; together they are what the root finder returns for the
  rate at which the plain train delivers the target, searched between two rates. The lower one is at least the rate asked for
  and the least flow, the upper one at most the largest flow; at the lower one all machines have the same mass rate. Nothing
  negative is recirculated unless the bounds are in the wrong order, and then the upper one is 0 or also has the same mass
  rate in all machines.
- The result is that at the lower or upper one of such bounds, and the pressure is too low or too high.
- The result is that at the rate asked for, without recirculation, and the machines have different mass rates at the lower
  bound, at the upper bound, and at all tenths between. -/
theorem C70_recirculated (p : Plant σ) (root : Root) (hroot : Inside root) (v : ℚ) (inp : Input) (wanted least most : ℚ)
    (hw : wanted = inp.rates.headD 0 / p.std) (hl : least = p.first (·.minRate v) * p.density inp.suction)
    (hm : most = p.first (·.maxRate v) * p.density inp.suction * (1 - eps)) (h0 : 0 ≤ most) (h1 : wanted ≤ most)
    (h2 : least ≤ most) :
    let plain := fun x => p.calc v p.fresh (inp.withRate (x * p.std))
    let Bounds := fun lo hi => wanted ≤ lo ∧ least ≤ lo ∧ lo ≤ most ∧ hi ≤ most ∧ Steady (plain lo) ∧
      (lo ≤ hi ∨ hi = 0 ∨ Steady (plain hi))
    (∃ a lo hi, p.commonAsv root v inp = (p.calc v (p.same (.mass a)) inp, p.same (.mass a)) ∧ Bounds lo hi ∧
      wanted + a = root lo hi (fun x => (plain x).pout - inp.discharge) ∧ (lo ≤ hi → 0 ≤ a) ∧
      inp.discharge ≤ (plain lo).pout ∧ (plain hi).pout ≤ inp.discharge) ∨
    (∃ lo hi, Bounds lo hi ∧ (p.commonAsv root v inp = (plain lo, p.fresh) ∧ (plain lo).pout < inp.discharge ∨
      p.commonAsv root v inp = (plain hi, p.fresh) ∧ inp.discharge < (plain hi).pout)) ∨
    (p.commonAsv root v inp = (plain wanted, p.fresh) ∧
      ∀ k : ℕ, k ≤ 10 → ∃ s t, s ∈ (plain (max wanted least + k / 10 * (most - max wanted least))).stages ∧
        t ∈ (plain (max wanted least + k / 10 * (most - max wanted least))).stages ∧ s.massAsv ≠ t.massAsv) := by
  intro plain Bounds
  have hlo : max wanted least ≤ most := max_le h1 h2
  have finish : ∀ lo hi, Bounds lo hi → p.commonAsv root v inp = p.commonFinish root v inp lo hi →
      (∃ a lo hi, p.commonAsv root v inp = (p.calc v (p.same (.mass a)) inp, p.same (.mass a)) ∧ Bounds lo hi ∧
        wanted + a = root lo hi (fun x => (plain x).pout - inp.discharge) ∧ (lo ≤ hi → 0 ≤ a) ∧
        inp.discharge ≤ (plain lo).pout ∧ (plain hi).pout ≤ inp.discharge) ∨
      (∃ lo hi, Bounds lo hi ∧ (p.commonAsv root v inp = (plain lo, p.fresh) ∧ (plain lo).pout < inp.discharge ∨
        p.commonAsv root v inp = (plain hi, p.fresh) ∧ inp.discharge < (plain hi).pout)) := by
    intro lo hi hb he
    rw [he]
    unfold Plant.commonFinish
    simp only
    split
    · rename_i h
      exact Or.inr ⟨lo, hi, hb, Or.inl ⟨rfl, h⟩⟩
    · rename_i h
      push Not at h
      split
      · rename_i h'
        exact Or.inr ⟨lo, hi, hb, Or.inr ⟨rfl, h'⟩⟩
      · rename_i h'
        push Not at h'
        refine Or.inl ⟨_, lo, hi, rfl, hb, ?_, ?_, h, h'⟩
        · rw [hw]; ring
        · intro hle
          have := (hroot lo hi (fun x => (plain x).pout - inp.discharge) hle).1
          rw [← hw]
          linarith [hb.1]
  have unequal : ∀ x, (plain x).constant = false →
      ∃ s t, s ∈ (plain x).stages ∧ t ∈ (plain x).stages ∧ s.massAsv ≠ t.massAsv := by
    intro x hx
    by_contra hc
    push Not at hc
    rw [constant_of_equal (fun s hs t ht => hc s t hs ht)] at hx
    cases hx
  have search : ∀ a b, a ≤ b → (plain b).constant = true → ∀ c,
      c = -maximizeX tol 20 (-b) (-a) (fun x => (plain (-x)).constant) → a ≤ c ∧ c ≤ b ∧ Steady (plain c) := by
    intro a b hab hb c hc
    obtain ⟨hi, m1, m2, m3, m4, -⟩ := C27.C27_maximize tol 20 (-b) (-a) (fun x => (plain (-x)).constant) (by linarith)
      (by norm_num [tol]) (by norm_num [tol])
    rw [hc]
    refine ⟨by linarith, by linarith, ?_⟩
    rcases m4 with m4 | m4
    · rw [m4, neg_neg]; exact steady_of_constant hb
    · exact steady_of_constant m4
  have hdef : p.commonAsv root v inp =
      if wanted > most then (plain wanted, p.fresh)
      else if (plain (max wanted least)).constant then
        if (plain most).constant then p.commonFinish root v inp (max wanted least) most
        else p.commonFinish root v inp (max wanted least) (maximizeX tol 20 0 most fun x => (plain x).constant)
      else if (plain most).constant then
        p.commonFinish root v inp (-maximizeX tol 20 (-most) (-(max wanted least)) fun x => (plain (-x)).constant) most
      else
        match tryInc (fun inc => (plain (max wanted least + inc * (most - max wanted least))).constant) 10 (1 / 10) with
        | Option.none => (plain wanted, p.fresh)
        | some inc => p.commonFinish root v inp
            (-maximizeX tol 20 (-(max wanted least + inc * (most - max wanted least))) (-(max wanted least))
              fun x => (plain (-x)).constant)
            (maximizeX tol 20 (-maximizeX tol 20 (-(max wanted least + inc * (most - max wanted least))) (-(max wanted least))
              (fun x => (plain (-x)).constant) + inc * (most - -maximizeX tol 20
                (-(max wanted least + inc * (most - max wanted least))) (-(max wanted least))
              (fun x => (plain (-x)).constant))) most fun x => (plain x).constant) := by
    rw [Plant.commonAsv]
    subst hw hl hm
    rfl
  rw [if_neg (not_lt.mpr h1)] at hdef
  split at hdef
  · rename_i hc
    have hs := steady_of_constant hc
    split at hdef
    · rename_i hc'
      rcases finish _ _ ⟨le_max_left _ _, le_max_right _ _, hlo, le_refl _, hs, Or.inl hlo⟩ hdef with h | h
      · exact Or.inl h
      · exact Or.inr (Or.inl h)
    · obtain ⟨hi, m1, m2, m3, m4, -⟩ := C27.C27_maximize tol 20 0 most (fun x => (plain x).constant) h0 (by norm_num [tol])
        (by norm_num [tol])
      rcases finish _ _ ⟨le_max_left _ _, le_max_right _ _, hlo, le_trans m2 m3, hs, Or.inr (by
        rcases m4 with m4 | m4
        · exact Or.inl m4
        · exact Or.inr (steady_of_constant m4))⟩ hdef with h | h
      · exact Or.inl h
      · exact Or.inr (Or.inl h)
  · rename_i hc
    split at hdef
    · rename_i hc'
      obtain ⟨c1, c2, c3⟩ := search _ _ hlo hc' _ rfl
      rcases finish _ _ ⟨le_trans (le_max_left _ _) c1, le_trans (le_max_right _ _) c1, c2, le_refl _, c3, Or.inl c2⟩ hdef
        with h | h
      · exact Or.inl h
      · exact Or.inr (Or.inl h)
    · rename_i hc'
      split at hdef
      · rename_i hn
        refine Or.inr (Or.inr ⟨hdef, ?_⟩)
        intro k hk
        apply unequal
        rcases Nat.eq_zero_or_pos k with rfl | hk0
        · simpa using hc
        · rcases Nat.lt_or_ge k 10 with h10 | h10
          · exact tryInc_none _ hn k hk0 (by omega)
          · have : k = 10 := by omega
            subst this
            have e : max wanted least + ((10 : ℕ) : ℚ) / 10 * (most - max wanted least) = most := by push_cast; ring
            rw [e]
            simpa using hc'
      · rename_i inc hi
        obtain ⟨i1, i2, i3⟩ := tryInc_some _ _ _ _ hi (by norm_num)
        have hd : 0 ≤ most - max wanted least := by linarith
        have b1 : max wanted least ≤ max wanted least + inc * (most - max wanted least) := by nlinarith
        have b2 : max wanted least + inc * (most - max wanted least) ≤ most := by nlinarith
        obtain ⟨c1, c2, c3⟩ := search _ _ b1 i1 _ rfl
        generalize -maximizeX tol 20 (-(max wanted least + inc * (most - max wanted least))) (-(max wanted least))
          (fun x => (plain (-x)).constant) = lo at *
        have d1 : lo ≤ lo + inc * (most - lo) := by nlinarith
        have d2 : lo + inc * (most - lo) ≤ most := by nlinarith
        obtain ⟨hi', m1, m2, m3, -⟩ := C27.C27_maximize tol 20 (lo + inc * (most - lo)) most (fun x => (plain x).constant) d2
          (by norm_num [tol]) (by norm_num [tol])
        rcases finish _ _ ⟨le_trans (le_max_left _ _) c1, le_trans (le_max_right _ _) c1, le_trans c2 b2, le_trans m2 m3, c3,
          Or.inl (le_trans d1 m1)⟩ hdef with h | h
        · exact Or.inl h
        · exact Or.inr (Or.inl h)

/-- Stages that hit their targets. -/
theorem target_chain (root : Root) (massOf : σ → ℚ) (v ratio : ℚ) (l : List (StageP σ)) (pr : ℚ) (x : σ)
    (hit : ∀ (s : StageP σ) (t mass : ℚ) (y : σ), s ∈ l → (s.target root v t mass y).1.pout = t) :
    ((((targetStages root massOf v ratio l pr x).map (·.1)).getLast?).map (·.pout)).getD pr = pr * ratio ^ l.length := by
  induction l generalizing pr x with
  | nil => simp [targetStages]
  | cons s l ih =>
    have h1 := hit s (pr * ratio) (massOf x) x (by simp)
    have := ih (s.target root v (pr * ratio) (massOf x) x).1.pout (s.target root v (pr * ratio) (massOf x) x).1.out
      (fun s t m y hs => hit s t m y (by simp [hs]))
    simp only [targetStages, List.map_cons, List.length_cons]
    rw [h1] at this ⊢
    cases hl : (targetStages root massOf v ratio l (pr * ratio) (s.target root v (pr * ratio) (massOf x) x).1.out).map (·.1) with
    | nil =>
      rw [hl] at this
      simp only [List.getLast?_nil, Option.map_none, Option.getD_none, List.getLast?_singleton, Option.map_some,
        Option.getD_some] at this ⊢
      rw [h1]
      have e : pr * ratio * ratio ^ l.length = pr * ratio ^ (l.length + 1) := by ring
      rw [← e]; exact this
    | cons y ys =>
      rw [hl] at this
      rw [List.getLast?_cons_cons]
      have hs : ((y :: ys).getLast?).isSome := by simp
      obtain ⟨w, hw⟩ := Option.isSome_iff_exists.mp hs
      rw [hw] at this ⊢
      simp only [Option.map_some, Option.getD_some] at this ⊢
      rw [this]
      ring

/-- **Same pressure ratio in all stages.** If every stage reaches the pressure asked of it, and the ratio per stage is that
root of the whole ratio, the train delivers the target. -/
theorem C70_pressure (p : Plant σ) (root : Root) (v : ℚ) (inp : Input) (hpin : inp.suction ≠ 0)
    (hratio : p.ratio inp.suction inp.discharge p.stages.length ^ p.stages.length = inp.discharge / inp.suction)
    (hit : ∀ (s : StageP σ) (t mass : ℚ) (y : σ), s ∈ p.stages → (s.target root v t mass y).1.pout = t) :
    (p.asvPressure root v inp).1.pout = inp.discharge := by
  have := target_chain root p.massOf v (p.ratio inp.suction inp.discharge p.stages.length) p.stages inp.suction
    (p.inlet inp.suction (inp.rates.headD 0)) hit
  have e : (p.asvPressure root v inp).1.pout = (((targetStages root p.massOf v
    (p.ratio inp.suction inp.discharge p.stages.length) p.stages inp.suction
    (p.inlet inp.suction (inp.rates.headD 0))).map (·.1)).getLast?.map (·.pout)).getD inp.suction := rfl
  rw [e, this, hratio]
  field_simp

/-- **One stage and its target.** The stage runs with a mass rate between nothing and the room up to the chart's limit. Its
pressure is the target if the search converges, or below the target with nothing recirculated, or above it with as much as
there is room for. -/
theorem C70_stage (s : StageP σ) (root : Root) (hroot : Inside root) (v t mass : ℚ) (x : σ) :
    ∃ a, 0 ≤ a ∧ (s.target root v t mass x).1 = s.run v (.mass a) none x ∧
      a ≤ max (s.maxRate v * (s.run v (.mass 0) none x).density - mass) 0 ∧
      (a = 0 ∧ (s.target root v t mass x).1.pout < t ∨
       t < (s.target root v t mass x).1.pout ∧
        a = max (s.maxRate v * (s.run v (.mass 0) none x).density - mass - eps) 0 ∨
       ∃ b, a = root 0 b (fun y => (s.run v (.mass y) none x).pout - t) ∧ t ≤ (s.run v (.mass 0) none x).pout ∧
        (s.run v (.mass b) none x).pout ≤ t) := by
  have hle : max (s.maxRate v * (s.run v (.mass 0) none x).density - mass - eps) 0 ≤
      max (s.maxRate v * (s.run v (.mass 0) none x).density - mass) 0 :=
    max_le_max (by unfold eps; linarith) (le_refl _)
  unfold StageP.target
  simp only
  split
  · rename_i h
    exact ⟨0, le_refl _, rfl, le_max_right _ _, Or.inl ⟨rfl, h⟩⟩
  · rename_i h
    push Not at h
    split
    · rename_i h'
      exact ⟨_, le_max_right _ _, rfl, hle, Or.inr (Or.inl ⟨h', rfl⟩)⟩
    · rename_i h'
      obtain ⟨a, b⟩ := hroot 0 (max (s.maxRate v * (s.run v (.mass 0) none x).density - mass - eps) 0)
        (fun y => (s.run v (.mass y) none x).pout - t) (le_max_right _ _)
      exact ⟨_, a, rfl, le_trans b hle, Or.inr (Or.inr ⟨_, rfl, h, not_lt.mp h'⟩)⟩

/-! ## Where the results are not what one expects -/

/-- A root finder that halves the bracket thirty times, for falling functions too. -/
def bisect : Root := fun lo hi f => if f lo ≤ 0 then halve lo hi f else halve lo hi (fun x => -f x)

theorem bisect_inside : Inside bisect := by
  intro lo hi f h
  unfold bisect
  split
  · exact halve_inside lo hi _ h
  · exact halve_inside lo hi _ h

/-- A stage that runs at speed 2 and above. -/
def low (outs ins : ℕ) : StageP (ℚ × ℚ) := { C67.toy outs ins with minSpeed := 2 }

/-- Such a stage with the pressure at its inlet as power. -/
def hungry : StageP (ℚ × ℚ) := { low 0 0 with run := fun v m r x => { (low 0 0).run v m r x with power := x.1 } }

/-- A train of such stages. -/
def plant (l : List (StageP (ℚ × ℚ))) (c : Control) : Plant (ℚ × ℚ) :=
  { C67.three with stages := l, control := some c, interstage := none }

/-- **Gas taken out stays in.** With the same pressure ratio in all stages, the rates of the side streams are not looked at: a
valid result in which the second stage compresses all of the gas, although 2 of 5 are to be taken out ahead of it. -/
theorem C70_outlet_ignored : ∃ (p : Plant (ℚ × ℚ)) (inp : Input) (r : Res (ℚ × ℚ)) (st' : State),
    p.evaluate bisect (fun _ _ => 1) none none ⟨none, []⟩ inp = .ok (some r, st') ∧ r.isValid = true ∧
    p.control = some .individualPressure ∧ inp.rates = C67.layout 5 [⟨[], []⟩, ⟨[2], []⟩] ∧
    C67.Fits p.stages [⟨[], []⟩, ⟨[2], []⟩] ∧ C67.through 5 [⟨[], []⟩, ⟨[2], []⟩] 2 = 3 ∧
    r.stages.map (·.mass) = [5, 5] := by
  have h : ((plant [low 0 0, low 1 0] .individualPressure).evaluate bisect (fun _ _ => 1) none none ⟨none, []⟩
      ⟨1, 4, none, [5, 2]⟩).toOption.map (fun x => (x.1.map (fun r => (r.isValid, r.stages.map (·.mass))))) =
      some (some (true, [5, 5])) := by decide +kernel
  cases he : (plant [low 0 0, low 1 0] .individualPressure).evaluate bisect (fun _ _ => 1) none none ⟨none, []⟩
      ⟨1, 4, none, [5, 2]⟩ with
  | error e => rw [he] at h; cases h
  | ok x =>
    obtain ⟨o, st'⟩ := x
    cases o with
    | none => rw [he] at h; cases h
    | some r =>
      rw [he] at h
      simp only [Except.toOption, Option.map_some, Option.some.injEq, Prod.mk.injEq] at h
      exact ⟨_, _, r, st', he, h.1, rfl, by decide +kernel, rfl, by decide +kernel, h.2⟩

/-- A train with a limit on its power. -/
def weak : Plant (ℚ × ℚ) := { plant [low 0 0, low 0 0] .individualPressure with maxPower := some 10 }

/-- A train with limits on its power and on the pressure ahead of the choke. -/
def limited : Plant (ℚ × ℚ) := { plant [hungry] .downstreamChoke with maxPower := some 5, maxDischarge := some 10 }

/-- **No power limit.** With the same pressure ratio in all stages, the limit on the power is not applied: a valid result with
more power than the train may have. -/
theorem C70_power_ignored : ∃ (p : Plant (ℚ × ℚ)) (inp : Input) (r : Res (ℚ × ℚ)) (st' : State) (limit : ℚ),
    p.evaluate bisect (fun _ _ => 1) none none ⟨none, []⟩ inp = .ok (some r, st') ∧ r.isValid = true ∧
    p.control = some .individualPressure ∧ p.maxPower = some limit ∧ 0 < limit ∧ limit < (r.stages.map (·.power)).sum := by
  have h : (weak.evaluate bisect (fun _ _ => 1) none none
      ⟨none, []⟩ ⟨1, 4, none, [5]⟩).toOption.map (fun x => (x.1.map (fun r => (r.isValid,
        decide (10 < (r.stages.map (·.power)).sum))))) = some (some (true, true)) := by decide +kernel
  cases he : weak.evaluate bisect (fun _ _ => 1) none none
      ⟨none, []⟩ ⟨1, 4, none, [5]⟩ with
  | error e => rw [he] at h; cases h
  | ok x =>
    obtain ⟨o, st'⟩ := x
    cases o with
    | none => rw [he] at h; cases h
    | some r =>
      rw [he] at h
      simp only [Except.toOption, Option.map_some, Option.some.injEq, Prod.mk.injEq, decide_eq_true_eq] at h
      exact ⟨_, _, r, st', 10, he, h.1, rfl, rfl, by norm_num, h.2⟩

/-- **Stale power limit.** With a limit on the pressure ahead of a downstream choke, the result says that the power limit is
exceeded when it would be without that limit: a result that is not valid although everything is in order. -/
theorem C70_power_stale : ∃ (p : Plant (ℚ × ℚ)) (inp : Input) (r : Res (ℚ × ℚ)) (st' : State) (limit : ℚ),
    p.evaluate bisect (fun _ _ => 1) none none ⟨none, []⟩ inp = .ok (some r, st') ∧ r.failure = .abovePower ∧
    p.control = some .downstreamChoke ∧ p.maxPower = some limit ∧ (r.stages.map (·.power)).sum < limit := by
  have h : (limited.evaluate bisect
      (fun _ _ => 1) none none ⟨none, []⟩ ⟨10, 8, none, [5]⟩).toOption.map (fun x => (x.1.map (fun r => (r.failure,
        decide ((r.stages.map (·.power)).sum < 5))))) = some (some (.abovePower, true)) := by decide +kernel
  cases he : limited.evaluate bisect
      (fun _ _ => 1) none none ⟨none, []⟩ ⟨10, 8, none, [5]⟩ with
  | error e => rw [he] at h; cases h
  | ok x =>
    obtain ⟨o, st'⟩ := x
    cases o with
    | none => rw [he] at h; cases h
    | some r =>
      rw [he] at h
      simp only [Except.toOption, Option.map_some, Option.some.injEq, Prod.mk.injEq, decide_eq_true_eq] at h
      exact ⟨_, _, r, st', 5, he, h.1, rfl, rfl, h.2⟩

/-! ## Examples -/

example : ((plant [low 0 0, low 1 0] .downstreamChoke).evaluate bisect (fun _ _ => 1) none none ⟨none, []⟩
    ⟨1, 4, none, [5, 2]⟩).toOption.map (fun x => (x.1.map (fun r => (r.isValid, r.pout, r.stages.map (·.pout), r.speed)))) =
    some (some (true, 4, [5 / 2, 36 / 5], 2)) := by decide +kernel

example : ((plant [low 0 0, low 1 0] .upstreamChoke).evaluate bisect (fun _ _ => 1) none none ⟨none, []⟩
    ⟨1, 4, none, [5, 2]⟩).toOption.map (fun x => (x.1.map (fun r => (r.isValid, r.pin, r.stages.map (·.mass),
      decide (∀ s ∈ r.stages.head?, s.pin < 1))))) = some (some (true, 1, [5, 3], true)) := by decide +kernel

example : ((plant [low 0 0, low 1 0] .individualRate).evaluate bisect (fun _ _ => 1) none none ⟨none, []⟩
    ⟨1, 4, none, [5, 2]⟩).toOption.map (fun x => (x.1.map (fun r => (r.isValid, r.stages.map (·.mass), r.pin)))) =
    some (some (true, [5, 3], 1)) := by decide +kernel

example : ((plant [low 0 0, low 0 0] .commonAsv).evaluate bisect (fun _ _ => 1) none none ⟨none, []⟩
    ⟨1, 5, none, [5]⟩).toOption.map (fun x => (x.1.map (fun r => (r.isValid, r.stages.map (·.mass), r.pin)))) =
    some (some (true, [5, 5], 1)) := by decide +kernel

/-- A common valve that recirculates two and a half on top of five. -/
example : (((plant [low 0 0, low 0 0] .commonAsv).commonAsv bisect 2 ⟨1, 6, none, [5]⟩).2.map fun m => match m with
      | .mass a => decide (|a - 5 / 2| < 1 / 1000)
      | _ => false) = [true, true] := by decide +kernel

end Verif.C70
