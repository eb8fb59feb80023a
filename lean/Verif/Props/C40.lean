import Verif.Model.Finders
import Mathlib.Tactic.Linarith
import Mathlib.Tactic.Ring
import Mathlib.Tactic.FieldSimp
import Mathlib.Tactic.NormNum

/-!
# C40: chokes never raise pressure and hit the target when feasible
-/

namespace Verif.C40
open Verif.Process Verif.Finders

/-! ## Specification -/

/-- What is assumed of the fluid service: a PT flash gives the requested pressure and temperature, and the density at
standard conditions that the service uses for the same fluid, which is positive. -/
structure Lawful (svc : Service) : Prop where
  pressure : ∀ m p t r, svc.flashPT m p t = .ok r → r.pressure = p
  temperature : ∀ m p t r, svc.flashPT m p t = .ok r → r.temperature = t
  density : ∀ m p t r, svc.flashPT m p t = .ok r → r.stdDensity = svc.stdDensity m
  positive : ∀ m, 0 < svc.stdDensity m

/-- The outlet pressure of a train followed by a choke with the given pressure drop. -/
def trainPressure (svc : Service) (us : List ProcUnit) (s : Stream) : Sim := fun dp =>
  (runUnits svc (us ++ [.choke dp]) s).map (·.props.pressure)

/-- What is assumed of a root finder: a result is in the bracket and the function is within `ε` of zero there. -/
def RootWithin (root : RootFinder) (ε : ℚ) : Prop :=
  ∀ b g x, root b g = .ok x → b.min ≤ x ∧ x ≤ b.max ∧ ∃ y, g x = .ok y ∧ |y| ≤ ε

/-- Carrying out requests to change the pressure drop, refused ones leaving it as it is. -/
def afterRequests : ℚ → List ℚ → ℚ
  | dp, [] => dp
  | dp, r :: rs =>
    match setPressureChange dp r with
    | .ok v => afterRequests v rs
    | .error _ => afterRequests dp rs

/-! ## Lemmas -/

theorem fromStdRate_ok (svc : Service) (m : FluidModel) (p t rate : ℚ) (o : Stream)
    (h : svc.fromStdRate m p t rate = .ok o) :
    svc.flashPT m p t = .ok o.props ∧ o.model = m ∧ o.mass = rate * svc.stdDensity m / 24 ∧ 0 ≤ o.mass := by
  unfold Service.fromStdRate at h
  simp only [Bind.bind, Except.bind] at h
  split at h
  · cases h
  · rename_i r hr
    unfold Stream.make at h
    split at h
    · cases h
    · rename_i hm
      cases h
      exact ⟨hr, rfl, rfl, not_lt.mp hm⟩

theorem runUnits_append (svc : Service) (us vs : List ProcUnit) (s : Stream) :
    runUnits svc (us ++ vs) s = (runUnits svc us s).bind (runUnits svc vs) := by
  induction us generalizing s with
  | nil => rfl
  | cons u us ih =>
    simp only [List.cons_append, runUnits, Bind.bind, Except.bind]
    cases u.propagate svc s with
    | error e => rfl
    | ok t => exact ih t

theorem run_choke (svc : Service) (us : List ProcUnit) (dp : ℚ) (s : Stream) :
    runUnits svc (us ++ [.choke dp]) s = (runUnits svc us s).bind (choke svc dp) := by
  rw [runUnits_append]
  cases runUnits svc us s with
  | error e => rfl
  | ok o =>
    simp only [Except.bind, runUnits, Bind.bind, ProcUnit.propagate]
    cases choke svc dp o <;> rfl

/-! ## The choke -/

/-- **The choke.** The outlet pressure is the inlet pressure minus the drop; temperature, fluid and standard rate are
kept, and so is the mass rate of a stream whose density at standard conditions is the service's. -/
theorem C40_choke (svc : Service) (hs : Lawful svc) (dp : ℚ) (s o : Stream) (h : choke svc dp s = .ok o) :
    o.props.pressure = s.props.pressure - max dp 0 ∧ o.props.temperature = s.props.temperature ∧ o.model = s.model ∧
    o.stdRate = s.stdRate ∧ (s.props.stdDensity = svc.stdDensity s.model → o.mass = s.mass) ∧
    (0 ≤ s.props.pressure → 0 ≤ o.props.pressure) ∧ o.props.pressure ≤ s.props.pressure := by
  unfold choke at h
  split at h
  · rename_i hdp
    simp only at h
    split at h
    · cases h
    · rename_i hp
      obtain ⟨h1, h2, h3, -⟩ := fromStdRate_ok _ _ _ _ _ _ h
      have hpos := hs.positive s.model
      have hne : svc.stdDensity s.model ≠ 0 := ne_of_gt hpos
      have hd := hs.density _ _ _ _ h1
      have hpr := hs.pressure _ _ _ _ h1
      refine ⟨?_, hs.temperature _ _ _ _ h1, h2, ?_, ?_, ?_, ?_⟩
      · rw [hpr, max_eq_left (le_of_lt hdp)]
      · have : o.stdRate = o.mass / o.props.stdDensity * 24 := rfl
        rw [this, h3, hd]
        field_simp
      · intro he
        have : s.stdRate = s.mass / s.props.stdDensity * 24 := rfl
        rw [h3, this, he]
        field_simp
      · intro _
        rw [hpr]
        linarith
      · rw [hpr]
        linarith
  · rename_i hdp
    cases h
    rw [max_eq_right (not_lt.mp hdp)]
    simp

/-- **No drop, no change**: also for a negative drop given to the constructor. -/
theorem C40_zero (svc : Service) (dp : ℚ) (hdp : dp ≤ 0) (s : Stream) : choke svc dp s = .ok s := by
  unfold choke
  rw [if_neg (not_lt.mpr hdp)]

/-- **Too large a drop.** With a flash that does not fail, the choke fails exactly when the drop is larger than the
inlet pressure, and the error tells both. -/
theorem C40_too_large (svc : Service) (hpos : ∀ m, 0 < svc.stdDensity m)
    (hflash : ∀ m p t, ∃ r, svc.flashPT m p t = .ok r) (dp : ℚ) (s : Stream) (hp : 0 ≤ s.props.pressure) (hm : 0 ≤ s.mass) (hd : 0 < s.props.stdDensity) :
    (dp > s.props.pressure → choke svc dp s = .error (.insufficient s.props.pressure dp)) ∧
    (dp ≤ s.props.pressure → ∃ o, choke svc dp s = .ok o) := by
  constructor
  · intro h
    unfold choke
    rw [if_pos (lt_of_le_of_lt hp h)]
    simp only
    rw [if_pos (by linarith)]
  · intro h
    unfold choke
    split
    · simp only
      rw [if_neg (by linarith)]
      unfold Service.fromStdRate
      obtain ⟨r, hr⟩ := hflash s.model (s.props.pressure - dp) s.props.temperature
      simp only [Bind.bind, Except.bind, hr]
      unfold Stream.make
      rw [if_neg]
      · exact ⟨_, rfl⟩
      · unfold Stream.stdRate
        have := hpos s.model
        have : 0 ≤ s.mass / s.props.stdDensity * 24 * svc.stdDensity s.model / 24 := by positivity
        linarith
    · exact ⟨s, rfl⟩

/-- **Settings.** After any requests the drop is the last one that was not negative (the original one if there is
none), so a drop that was not negative never becomes negative. -/
theorem C40_settings (dp : ℚ) (rs : List ℚ) :
    afterRequests dp rs = ((dp :: rs.filter (0 ≤ ·)).getLast (by simp)) ∧ (0 ≤ dp → 0 ≤ afterRequests dp rs) := by
  induction rs generalizing dp with
  | nil => simp [afterRequests]
  | cons r rs ih =>
    by_cases hr : r < 0
    · have h1 : setPressureChange dp r = .error .value := by unfold setPressureChange; rw [if_pos hr]
      have h2 : (r :: rs).filter (fun x => decide (0 ≤ x)) = rs.filter (fun x => decide (0 ≤ x)) := by
        rw [List.filter_cons, if_neg (by simpa using hr)]
      unfold afterRequests
      simp only [h1, h2]
      exact ih dp
    · have h1 : setPressureChange dp r = .ok r := by unfold setPressureChange; rw [if_neg hr]
      have h2 : (r :: rs).filter (fun x => decide (0 ≤ x)) = r :: rs.filter (fun x => decide (0 ≤ x)) := by
        rw [List.filter_cons, if_pos (by simpa using not_lt.mp hr)]
      unfold afterRequests
      simp only [h1, h2]
      obtain ⟨i1, i2⟩ := ih r
      refine ⟨?_, fun _ => i2 (not_lt.mp hr)⟩
      rw [i1]
      exact (List.getLast_cons (by simp)).symm

/-! ## The downstream choke -/

theorem close_iff (v tol p : ℚ) : close v tol p = true ↔ |p - v| ≤ tol := by unfold close; simp

/-- **Downstream choke.** Behind any train that gives an outlet stream: the strategy answers with success exactly when
the train's outlet pressure is not below the target by more than the tolerance; then the train with that choke gives a
pressure within the tolerance of the target, and exactly the target if the choke is used. Otherwise it reports the
pressure of the train without choke as the best achievable. -/
theorem C40_downstream (svc : Service) (hs : Lawful svc) (us : List ProcUnit) (s o : Stream)
    (ho : runUnits svc us s = .ok o) (value tol : ℚ) (hv : 0 ≤ value) (ht : 0 ≤ tol) :
    ∃ fd, applyDownstream value tol (trainPressure svc us s) = .ok fd ∧
      (fd.failure = none ↔ value - tol ≤ o.props.pressure) ∧ 0 ≤ fd.config ∧ fd.config ≤ max o.props.pressure 0 ∧
      (fd.failure = none → ∀ p, trainPressure svc us s fd.config = .ok p →
        |p - value| ≤ tol ∧ (fd.config ≠ 0 → p = value)) ∧
      (fd.failure ≠ none → fd = ⟨0, some (.unreachable o.props.pressure value false)⟩) := by
  have htr : ∀ dp, trainPressure svc us s dp = (choke svc dp o).map (·.props.pressure) := by
    intro dp
    unfold trainPressure
    rw [run_choke, ho]
    rfl
  have h0 : trainPressure svc us s 0 = .ok o.props.pressure := by
    rw [htr, C40_zero svc 0 (le_refl 0)]
    rfl
  have hgen : ∀ dp p, trainPressure svc us s dp = .ok p → p = o.props.pressure - max dp 0 := by
    intro dp p hp
    rw [htr] at hp
    cases hc : choke svc dp o with
    | error e => rw [hc] at hp; cases hp
    | ok q =>
      rw [hc] at hp
      cases hp
      exact (C40_choke svc hs dp o q hc).1
  unfold applyDownstream
  simp only [Bind.bind, Except.bind, h0]
  by_cases hc : |o.props.pressure - value| ≤ tol
  · have hb : close value tol o.props.pressure = true := (close_iff _ _ _).mpr hc
    simp only [hb, Bool.or_true, if_true]
    obtain ⟨hc1, hc2⟩ := abs_le.mp hc
    refine ⟨_, rfl, ?_, le_refl _, le_max_right _ _, ?_, ?_⟩
    · simp only [true_iff]
      linarith
    · intro _ p hp
      rw [h0] at hp
      cases hp
      exact ⟨hc, fun h => absurd rfl h⟩
    · intro h
      exact absurd rfl h
  · have hb : close value tol o.props.pressure = false := by
      rw [Bool.eq_false_iff]
      intro h
      exact hc ((close_iff _ _ _).mp h)
    simp only [hb, Bool.not_false, Bool.true_and, Bool.or_false]
    by_cases hlt : value > o.props.pressure
    · rw [if_pos (by simpa using hlt)]
      simp only [Bool.false_eq_true, if_false]
      refine ⟨_, rfl, ?_, le_refl _, le_max_right _ _, ?_, ?_⟩
      · constructor
        · intro h
          cases h
        · intro h
          refine absurd (abs_le.mpr ⟨?_, ?_⟩) hc <;> linarith
      · intro h
        cases h
      · intro _
        rfl
    · rw [if_neg (by simpa using hlt)]
      unfold findDownstream
      simp only [Bind.bind, Except.bind, h0]
      rw [if_neg (by simpa using hlt)]
      have hle : value ≤ o.props.pressure := not_lt.mp hlt
      have hmax : o.props.pressure - value ≤ max o.props.pressure 0 := le_trans (by linarith) (le_max_left _ _)
      refine ⟨_, rfl, ?_, sub_nonneg.mpr hle, hmax, ?_, ?_⟩
      · simp only [true_iff]
        linarith
      · intro _ p hp
        have hpe := hgen _ p hp
        simp only at hpe
        rw [max_eq_left (by linarith)] at hpe
        have hpv : p = value := by linarith
        rw [hpv]
        simp [ht]
      · intro h
        exact absurd rfl h

/-- An error of the train itself is passed on. -/
theorem C40_downstream_error (svc : Service) (us : List ProcUnit) (s : Stream) (e : PErr)
    (ho : runUnits svc us s = .error e) (value tol : ℚ) :
    applyDownstream value tol (trainPressure svc us s) = .error e := by
  unfold applyDownstream trainPressure
  simp only [run_choke, ho, Except.bind, Except.map, Bind.bind]

/-! ## The upstream choke -/

theorem pressureTol_pos : (0 : ℚ) < pressureTol := by unfold pressureTol; norm_num

/-- The loop keeps: a bracket inside the original one, whose upper end failed with the error kept, and whose lower end
is the original one or a setting that works. -/
theorem chokeLoop_ok (f : Sim) : ∀ (n : Nat) (lo hi : ℚ) (e : PErr) (r : ℚ × ℚ × PErr), lo ≤ hi → f hi = .error e →
    isCapacity e = true → chokeLoop f n lo hi e = .ok r →
    lo ≤ r.1 ∧ r.1 ≤ r.2.1 ∧ r.2.1 ≤ hi ∧ f r.2.1 = .error r.2.2 ∧ isCapacity r.2.2 = true ∧
      (r.1 = lo ∨ ∃ p, f r.1 = .ok p) ∧ (r.2.1 - r.1 ≤ pressureTol ∨ r.2.1 - r.1 = (hi - lo) / 2 ^ n) := by
  intro n
  induction n with
  | zero =>
    intro lo hi e r hlh he hc h
    unfold chokeLoop at h
    cases h
    exact ⟨le_refl _, hlh, le_refl _, he, hc, Or.inl rfl, Or.inr (by simp)⟩
  | succ n ih =>
    intro lo hi e r hlh he hc h
    unfold chokeLoop at h
    split at h
    · split at h
      · rename_i p hp
        obtain ⟨a1, a2, a3, a4, a5, a6, a7⟩ := ih _ _ _ _ (by linarith) he hc h
        refine ⟨by linarith, a2, a3, a4, a5, ?_, ?_⟩
        · rcases a6 with a6 | a6
          · exact Or.inr ⟨p, by rw [a6]; exact hp⟩
          · exact Or.inr a6
        · rcases a7 with a7 | a7
          · exact Or.inl a7
          · refine Or.inr ?_
            rw [a7]
            field_simp
            ring
      · rename_i e' he'
        split at h
        · rename_i hc'
          obtain ⟨a1, a2, a3, a4, a5, a6, a7⟩ := ih _ _ _ _ (by linarith) he' hc' h
          refine ⟨a1, a2, by linarith, a4, a5, a6, ?_⟩
          rcases a7 with a7 | a7
          · exact Or.inl a7
          · refine Or.inr ?_
            rw [a7]
            field_simp
            ring
        · cases h
    · rename_i hw
      cases h
      exact ⟨le_refl _, hlh, le_refl _, he, hc, Or.inl rfl, Or.inl (not_lt.mp hw)⟩

/-- The number of passes allowed in the model is enough for the while loop of the code to have ended. -/
theorem chokeFuel_enough (b : Boundary) : (b.max - b.min) / 2 ^ (chokeFuel b) ≤ pressureTol := by
  have hp : (0 : ℚ) < 2 ^ chokeFuel b := by positivity
  rw [div_le_iff₀ hp]
  have h1 : (b.max - b.min) / pressureTol ≤ (chokeFuel b : ℚ) := Nat.le_ceil _
  have h2 : (chokeFuel b : ℚ) ≤ 2 ^ chokeFuel b := by
    have := Nat.lt_two_pow_self (n := chokeFuel b)
    exact_mod_cast this.le
  rw [div_le_iff₀ pressureTol_pos] at h1
  nlinarith [pressureTol_pos]

theorem searchMax_ok (b : Boundary) (f : Sim) (hb : b.min ≤ b.max) (r : ℚ × Option PErr)
    (h : chokeSearchMax b f = .ok r) :
    (r = (b.max, none) ∧ ∃ p, f b.max = .ok p) ∨
    (∃ e x, r.2 = some e ∧ b.min ≤ r.1 ∧ r.1 ≤ x ∧ x ≤ b.max ∧ x - r.1 ≤ pressureTol ∧ f x = .error e ∧
      isCapacity e = true) := by
  unfold chokeSearchMax at h
  split at h
  · rename_i p hp
    cases h
    exact Or.inl ⟨rfl, p, hp⟩
  · rename_i e he
    split at h
    · rename_i hc
      simp only [Bind.bind, Except.bind] at h
      split at h
      · cases h
      · rename_i q hq
        simp only [Pure.pure, Except.pure] at h
        cases h
        obtain ⟨a1, a2, a3, a4, a5, -, a7⟩ := chokeLoop_ok f _ _ _ _ _ hb he hc hq
        refine Or.inr ⟨q.2.2, q.2.1, rfl, a1, a2, a3, ?_, a4, a5⟩
        rcases a7 with a7 | a7
        · exact a7
        · rw [a7]
          exact chokeFuel_enough b
    · cases h

/-- The error was turned into the failure with the same numbers. -/
def Reports : PErr → Failure → Prop
  | .stonewall a b, fl => fl = .stonewall a b
  | .insufficient a b, fl => fl = .insufficient a b
  | _, _ => False

/-- **Upstream choke.** For any simulation, whatever the finder answers with: without choke the outlet pressure is
above the target. Success: the drop is in the allowed range and the outlet pressure is within the root finder's
tolerance of the target. Failure: the reported drop is in the range and works, its outlet pressure is still above the
target, and either it is the largest drop allowed, or a drop at most the tolerance larger runs into the capacity error
that is reported. -/
theorem C40_upstream (root : RootFinder) (ε : ℚ) (hr : RootWithin root ε) (target : ℚ) (b : Boundary)
    (hb : b.min ≤ b.max) (f : Sim) (fd : Finding) (h : findUpstream root target b f = .ok fd) :
    (∃ p0, f 0 = .ok p0 ∧ target < p0) ∧ b.min ≤ fd.config ∧ fd.config ≤ b.max ∧
    ∃ p, f fd.config = .ok p ∧
      match fd.failure with
      | none => |p - target| ≤ ε
      | some (.unreachable a t above) => target < p ∧ a = p ∧ t = target ∧ above = true ∧ fd.config = b.max
      | some fl => target < p ∧ ∃ x e, fd.config < x ∧ x ≤ b.max ∧ x - fd.config ≤ pressureTol ∧ f x = .error e ∧
          Reports e fl := by
  unfold findUpstream at h
  simp only [Bind.bind, Except.bind] at h
  split at h
  · cases h
  · rename_i p0 hp0
    split at h
    · rename_i hgt
      refine ⟨⟨p0, hp0, hgt⟩, ?_⟩
      split at h
      · cases h
      · rename_i q hq
        split at h
        · cases h
        · rename_i mp hmp
          have hsm := searchMax_ok b f hb q hq
          split at h
          · rename_i hab
            split at h
            · rename_i e hqe
              split at h
              · cases h
              · rename_i fl hfl
                cases h
                rcases hsm with ⟨h1, -⟩ | ⟨e', x, h1, h2, h3, h4, h5, h6, h7⟩
                · rw [h1] at hqe; cases hqe
                · rw [h1] at hqe
                  cases hqe
                  refine ⟨h2, by simp only; linarith, mp, hmp, ?_⟩
                  have hne : q.1 ≠ x := by
                    intro hh
                    rw [hh, h6] at hmp
                    cases hmp
                  have hlt : q.1 < x := lt_of_le_of_ne h3 hne
                  cases e with
                  | stonewall u v => cases hfl; exact ⟨hab, x, _, hlt, h4, h5, h6, rfl⟩
                  | insufficient u v => cases hfl; exact ⟨hab, x, _, hlt, h4, h5, h6, rfl⟩
                  | _ => cases hfl
            · rename_i hqe
              cases h
              rcases hsm with ⟨h1, -⟩ | ⟨e', x, h1, -⟩
              · subst h1
                exact ⟨hb, le_refl _, mp, hmp, hab, rfl, rfl, rfl, rfl⟩
              · rw [h1] at hqe; cases hqe
          · rename_i hab
            split at h
            · cases h
            · rename_i x hx
              cases h
              obtain ⟨r1, r2, y, r3, r4⟩ := hr _ _ _ hx
              have hqle : q.1 ≤ b.max := by
                rcases hsm with ⟨h1, -⟩ | ⟨e', z, -, -, h3, h4, -⟩
                · rw [h1]
                · linarith
              refine ⟨r1, le_trans r2 hqle, ?_⟩
              cases hfx : f x with
              | error e => rw [hfx] at r3; cases r3
              | ok p =>
                rw [hfx] at r3
                cases r3
                exact ⟨p, rfl, r4⟩
    · cases h

/-- **Upstream choke: failures are genuine.** If more choking never raises the outlet pressure, and a drop larger than
one that runs into a capacity error does so too, then after a failure no drop of the range reaches the target, except
possibly within the tolerance above the reported drop. -/
theorem C40_upstream_genuine (root : RootFinder) (ε : ℚ) (hr : RootWithin root ε) (target : ℚ) (b : Boundary)
    (hb : b.min ≤ b.max) (f : Sim) (fd : Finding) (h : findUpstream root target b f = .ok fd)
    (hf : fd.failure ≠ none)
    (hanti : ∀ x y p q, x ≤ y → f x = .ok p → f y = .ok q → q ≤ p)
    (hcap : ∀ x y e, x ≤ y → f x = .error e → ∃ e', f y = .error e')
    (x p : ℚ) (hx' : x ≤ b.max) (hp : f x = .ok p) (hout : x ≤ fd.config ∨ fd.config + pressureTol ≤ x) :
    target < p := by
  obtain ⟨-, h1, h2, q, hq, hm⟩ := C40_upstream root ε hr target b hb f fd h
  have hlow : target < q → x ≤ fd.config → target < p := fun hq' hle => lt_of_lt_of_le hq' (hanti x _ p q hle hp hq)
  have hcase : ∀ z e, fd.config < z → z - fd.config ≤ pressureTol → f z = .error e → target < q → target < p := by
    intro z e hz1 hz2 hz3 hq'
    rcases hout with hle | hge
    · exact hlow hq' hle
    · obtain ⟨e', he'⟩ := hcap z x e (by linarith) hz3
      rw [hp] at he'
      cases he'
  cases hfl : fd.failure with
  | none => exact absurd hfl hf
  | some fl =>
    rw [hfl] at hm
    cases fl with
    | unreachable a t above =>
      obtain ⟨m1, -, -, -, m5⟩ := hm
      exact hlow m1 (by rw [m5]; exact hx')
    | stonewall u v => obtain ⟨m1, z, e, m2, -, m3, m4, -⟩ := hm; exact hcase z e m2 m3 m4 m1
    | surge u v => obtain ⟨m1, z, e, m2, -, m3, m4, -⟩ := hm; exact hcase z e m2 m3 m4 m1
    | insufficient u v => obtain ⟨m1, z, e, m2, -, m3, m4, -⟩ := hm; exact hcase z e m2 m3 m4 m1
    | thermo => obtain ⟨m1, z, e, m2, -, m3, m4, -⟩ := hm; exact hcase z e m2 m3 m4 m1

/-- **Upstream choke: the bracket.** Within the allowed range, when the smallest drop leaves the outlet pressure above
the target and the largest one brings it to the target or below, the root finder gets a bracket with a sign change and
its answer is the answer. -/
theorem C40_upstream_bracket (root : RootFinder) (target : ℚ) (b : Boundary) (f : Sim) (p0 pMax : ℚ)
    (h0 : f 0 = .ok p0) (hp0 : target < p0) (hm : f b.max = .ok pMax) (hmt : pMax ≤ target) :
    findUpstream root target b f = (root b (fun x => (f x).map (· - target))).map (fun x => ⟨x, none⟩) := by
  unfold findUpstream chokeSearchMax
  simp only [Bind.bind, Except.bind, h0, hm]
  rw [if_pos hp0, if_neg (not_lt.mpr hmt)]
  cases root ⟨b.min, b.max⟩ (fun x => (f x).map (· - target)) <;> rfl

/-- A root finder that, like scipy's, refuses a bracket at whose ends the function has the same sign. -/
def RefusesSameSign (root : RootFinder) : Prop :=
  ∀ b g u v, g b.min = .ok u → g b.max = .ok v → 0 < u * v → root b g = .error .value

/-- **Finding.** The finder is called because the outlet pressure without choke (50) is above the target (49.9995), but
the range searched starts at a drop of 0.001, which is already too much: the root finder refuses the bracket, although
the drop 0.0005 solves the problem. -/
theorem C40_upstream_gap (root : RootFinder) (hr : RefusesSameSign root) :
    findUpstream root (50 - 1 / 2000) ⟨1 / 1000, 50 - 1 / 1000⟩ (fun x => .ok (50 - x)) = .error .value ∧
    (fun x : ℚ => (50 - x)) (1 / 2000) = 50 - 1 / 2000 := by
  constructor
  · rw [C40_upstream_bracket root _ _ _ 50 (1 / 1000) (by norm_num) (by norm_num) (by norm_num) (by norm_num)]
    rw [hr _ _ (-1 / 2000) (1 / 1000 - (50 - 1 / 2000)) (by simp only [Except.map]; norm_num)
      (by simp only [Except.map]; norm_num) (by norm_num)]
    rfl
  · norm_num

/-- **Finding.** The finder does not answer when the outlet pressure without choke does not exceed the target: it
fails an assertion. -/
theorem C40_upstream_assertion (root : RootFinder) (target : ℚ) (b : Boundary) (f : Sim) (p0 : ℚ) (h : f 0 = .ok p0)
    (hle : p0 ≤ target) : findUpstream root target b f = .error .assertion := by
  unfold findUpstream
  simp only [Bind.bind, Except.bind, h]
  rw [if_neg (not_lt.mpr hle)]

/-! ## Examples -/

/-- An ideal service. -/
def ideal : Service where
  flashPT := fun _ p t => .ok ⟨t, p, p / t, t, 1, 1, 4 / 5⟩
  flashPH := fun _ p _ t => .ok ⟨t, p, p / t, t, 1, 1, 4 / 5⟩
  removeLiquid := fun m p => .ok (m, p)
  stdDensity := fun _ => 4 / 5

theorem ideal_lawful : Lawful ideal where
  pressure := by intro m p t r h; cases h; rfl
  temperature := by intro m p t r h; cases h; rfl
  density := by intro m p t r h; cases h; rfl
  positive := by intro m; simp only [ideal]; norm_num

def gas : Stream := ⟨⟨.SRK, fun _ => 1⟩, ⟨300, 50, 1 / 6, 300, 1, 1, 4 / 5⟩, 240⟩

example : ((choke ideal 20 gas).map (fun o => (o.props.pressure, o.mass, o.stdRate))) = .ok (30, 240, 7200) := by
  decide +kernel
example : ((choke ideal 60 gas).map (fun o => o.props.pressure)) = .error (.insufficient 50 60) := by decide +kernel
example : applyDownstream 35 (1 / 10) (trainPressure ideal [.pressureDropper 5] gas) = .ok ⟨10, none⟩ := by
  decide +kernel
example : trainPressure ideal [.pressureDropper 5] gas 10 = .ok 35 := by decide +kernel
example : applyDownstream 46 (1 / 10) (trainPressure ideal [.pressureDropper 5] gas) =
    .ok ⟨0, some (.unreachable 45 46 false)⟩ := by decide +kernel
example : afterRequests 3 [1, -2, 7, -1] = 7 := by decide +kernel

/-- A simulation that stops working at a drop of 30. -/
def stops : Sim := fun x => if x ≤ 30 then .ok (100 - 2 * x) else .error (.stonewall x 30)

/-- The secant of the bracket: exact for straight lines. -/
def line : RootFinder := fun b g => do
  let u ← g b.min
  let v ← g b.max
  return b.min - u * (b.max - b.min) / (v - u)

example : findUpstream line 60 ⟨1 / 1000, 50 - 1 / 1000⟩ stops = .ok ⟨20, none⟩ := by decide +kernel
example : (match findUpstream line 30 ⟨1 / 1000, 50 - 1 / 1000⟩ stops with
    | .ok ⟨c, some (.stonewall a _)⟩ => decide (c ≤ 30) && decide (30 - c < 1 / 1000) && decide (a - c < 1 / 1000)
    | _ => false) = true := by decide +kernel

end Verif.C40
