import Verif.Props.C54

/-!
# C55: the shaft speed finder returns a speed that works, and its failures say what happened
-/

namespace Verif.C55
open Verif.Process Verif.Search Verif.Finders Verif.BisectE Verif.C27 Verif.C40 Verif.C54

/-! ## Specification -/

/-- The errors that more speed can cure. -/
def TooSlow (f : Sim) (x : ℚ) : Prop :=
  (∃ p q, f x = .error (.stonewall p q)) ∨ f x = .error .thermo ∨ ∃ p q, f x = .error (.insufficient p q)

/-- `top` is the largest speed the finder uses: the end of the range, or, when the equation of state fails there, a
speed that works and is within the resolution of the search below one that does not. -/
def Top (tol : ℚ) (n : Nat) (b : Boundary) (f : Sim) (top : ℚ) : Prop :=
  (top = b.max ∧ f b.max ≠ .error .thermo) ∨
  (f b.max = .error .thermo ∧ b.min ≤ top ∧ Works f top ∧
    ∃ hi, top < hi ∧ hi ≤ b.max ∧ ¬ Works f hi ∧ Close tol n (b.max - b.min) top hi)

/-! ## Lemmas -/

theorem speed_probe (f : Sim) (x : ℚ) (h : (total (speedProbe f) x).accepted = true) :
    (total (speedProbe f) x).higher = false ∧ Works f x := by
  unfold total speedProbe at h ⊢
  unfold Works
  cases hf : f x with
  | ok p => simp
  | error e => rw [hf] at h; cases e <;> simp at h

theorem speed_slow (f : Sim) (x : ℚ) (h : (total (speedProbe f) x).higher = true) : TooSlow f x := by
  unfold total speedProbe at h
  unfold TooSlow
  cases hf : f x with
  | ok p => rw [hf] at h; simp at h
  | error e => rw [hf] at h; cases e <;> simp at h ⊢

/-- What the search for the smallest speed raises is neither stonewall, surge nor insufficient inlet pressure. -/
theorem speed_search_error (tol : ℚ) (n : Nat) (b : Boundary) (f : Sim) (e : PErr)
    (h : searchE tol n b (speedProbe f) = .error e) : e = .notConverged ∨ ((∃ x, f x = .error e) ∧
      (∀ p q, e ≠ .stonewall p q) ∧ (∀ p q, e ≠ .insufficient p q) ∧ (∀ p q, e ≠ .surge p q) ∧ e ≠ .thermo) := by
  have hno : ∀ (k : Nat) (s : BisectState) (e : PErr), bisectLoopE tol (speedProbe f) k s = .error e →
      (∃ x, f x = .error e) ∧ (∀ p q, e ≠ .stonewall p q) ∧ (∀ p q, e ≠ .insufficient p q) ∧
        (∀ p q, e ≠ .surge p q) ∧ e ≠ .thermo := by
    intro k
    induction k with
    | zero => intro s e hk; cases hk
    | succ k ih =>
      intro s e hk
      unfold bisectLoopE at hk
      cases hp : speedProbe f ((s.lo + s.hi) / 2) with
      | ok r =>
        rw [hp] at hk
        simp only at hk
        split at hk
        · cases hk
        · exact ih _ _ hk
      | error e' =>
        rw [hp] at hk
        cases hk
        unfold speedProbe at hp
        cases hfx : f ((s.lo + s.hi) / 2) with
        | ok y => rw [hfx] at hp; cases hp
        | error y =>
          rw [hfx] at hp
          cases y <;> cases hp <;> exact ⟨⟨_, hfx⟩, by simp, by simp, by simp, by simp⟩
  unfold searchE at h
  cases hs : bisectLoopE tol (speedProbe f) n ⟨b.min, b.max, none, []⟩ with
  | error e' => rw [hs] at h; cases h; exact Or.inr (hno n _ _ hs)
  | ok s =>
    rw [hs] at h
    simp only [Bind.bind, Except.bind] at h
    split at h
    · cases h; exact Or.inl rfl
    · cases h

/-- **Smallest speed.** For any simulation: the speed found is in the range, the simulation succeeds there with the
outlet pressure returned, and it is the start of the range unless more speed is needed there. -/
theorem C55_min (tol : ℚ) (n : Nat) (b : Boundary) (hb : b.min ≤ b.max) (f : Sim) (x p : ℚ)
    (h : minSpeed tol n b f = .ok (x, p)) :
    b.min ≤ x ∧ x ≤ b.max ∧ f x = .ok p ∧ (Works f b.min ↔ x = b.min) ∧ (x ≠ b.min → TooSlow f b.min) := by
  unfold minSpeed at h
  have hup : ∀ (e : PErr), f b.min = .error e → TooSlow f b.min → (do
      let x ← searchE tol n b (speedProbe f)
      let p ← f x
      return (x, p) : Except PErr (ℚ × ℚ)) = .ok (x, p) →
      b.min ≤ x ∧ x ≤ b.max ∧ f x = .ok p ∧ (Works f b.min ↔ x = b.min) ∧ (x ≠ b.min → TooSlow f b.min) := by
    intro e he hslow hx
    cases hs : searchE tol n b (speedProbe f) with
    | error e' => rw [hs] at hx; cases hx
    | ok y =>
      rw [hs] at hx
      obtain ⟨h1, h2, h3⟩ := (C27_search tol n b.min b.max _ hb).1 y (searchE_ok tol n b _ y hs)
      obtain ⟨p', hp'⟩ := (speed_probe f y h3).2
      simp only [Bind.bind, Except.bind, hp', Pure.pure, Except.pure] at hx
      cases hx
      refine ⟨h1, h2, hp', ?_, fun _ => hslow⟩
      constructor
      · rintro ⟨r, hr⟩; rw [he] at hr; cases hr
      · intro hxe; rw [hxe] at hp'; exact ⟨_, hp'⟩
  cases hf : f b.min with
  | ok p' =>
    rw [hf] at h
    cases h
    exact ⟨le_refl _, hb, hf, by simp [Works, hf], by simp⟩
  | error e =>
    rw [hf] at h
    cases e with
    | stonewall u v => exact hup _ hf (Or.inl ⟨u, v, hf⟩) h
    | thermo => exact hup _ hf (Or.inr (Or.inl hf)) h
    | insufficient u v => exact hup _ hf (Or.inr (Or.inr ⟨u, v, hf⟩)) h
    | _ => cases h

/-- An exception out of the search for the smallest speed: surge only at the start of the range; never stonewall,
insufficient inlet pressure or a failed equation of state. -/
theorem C55_min_error (tol : ℚ) (n : Nat) (b : Boundary) (hb : b.min ≤ b.max) (f : Sim) (e : PErr)
    (h : minSpeed tol n b f = .error e) :
    (∀ p q, e ≠ .stonewall p q) ∧ (∀ p q, e ≠ .insufficient p q) ∧ e ≠ .thermo ∧
    (∀ p q, e = .surge p q → f b.min = .error (.surge p q)) ∧ (e = .notConverged ∨ ∃ x, f x = .error e) := by
  unfold minSpeed at h
  have hup : (do
      let x ← searchE tol n b (speedProbe f)
      let p ← f x
      return (x, p) : Except PErr (ℚ × ℚ)) = .error e →
      (∀ p q, e ≠ .stonewall p q) ∧ (∀ p q, e ≠ .insufficient p q) ∧ e ≠ .thermo ∧
      (∀ p q, e = .surge p q → f b.min = .error (.surge p q)) ∧ (e = .notConverged ∨ ∃ x, f x = .error e) := by
    intro hx
    cases hs : searchE tol n b (speedProbe f) with
    | error e' =>
      rw [hs] at hx
      cases hx
      rcases speed_search_error tol n b f _ hs with rfl | ⟨g1, g2, g3, g4, g5⟩
      · exact ⟨by simp, by simp, by simp, by simp, Or.inl rfl⟩
      · exact ⟨g2, g3, g5, fun p q he => absurd he (g4 p q), Or.inr g1⟩
    | ok y =>
      rw [hs] at hx
      obtain ⟨h1, h2, h3⟩ := (C27_search tol n b.min b.max _ hb).1 y (searchE_ok tol n b _ y hs)
      obtain ⟨p', hp'⟩ := (speed_probe f y h3).2
      simp only [Bind.bind, Except.bind, hp', Pure.pure, Except.pure] at hx
      cases hx
  cases hf : f b.min with
  | ok p' => rw [hf] at h; cases h
  | error e' =>
    rw [hf] at h hup
    cases e' with
    | stonewall u v => exact hup h
    | thermo => exact hup h
    | insufficient u v => exact hup h
    | surge u v =>
      cases h
      exact ⟨by simp, by simp, by simp, by rintro p q he; cases he; rfl, Or.inr ⟨_, hf⟩⟩
    | _ => cases h; exact ⟨by simp, by simp, by simp, by simp, Or.inr ⟨_, hf⟩⟩

/-- The search for the largest speed at which the equation of state works. -/
theorem highest_ok (tol : ℚ) (n : Nat) (b : Boundary) (hb : b.min ≤ b.max) (f : Sim) (r : Option ℚ)
    (h : highestTrueE tol n b (eosOk f) = .ok r) :
    match r with
    | none => ¬ Works f b.max ∧ ¬ Works f b.min
    | some v => b.min ≤ v ∧ v ≤ b.max ∧ Works f v ∧ (¬ Works f b.max → Works f b.min ∧
        ∃ hi, v < hi ∧ hi ≤ b.max ∧ ¬ Works f hi ∧ Close tol n (b.max - b.min) v hi) := by
  have heos : ∀ x r, eosOk f x = .ok r → (r = true ↔ Works f x) := by
    intro x r hx
    unfold eosOk at hx
    unfold Works
    cases hf : f x with
    | ok p => rw [hf] at hx; cases hx; simp
    | error e => rw [hf] at hx; cases e <;> cases hx <;> simp
  unfold highestTrueE at h
  cases hmax : eosOk f b.max with
  | error e => rw [hmax] at h; cases h
  | ok rm =>
    rw [hmax] at h
    cases rm with
    | true =>
      cases h
      exact ⟨hb, le_refl _, (heos _ _ hmax).1 rfl, fun hc => absurd ((heos _ _ hmax).1 rfl) hc⟩
    | false =>
      have hnm : ¬ Works f b.max := fun hw => by simpa using (heos _ _ hmax).2 hw
      simp only [Bind.bind, Except.bind, Bool.false_eq_true, if_false] at h
      cases hmin : eosOk f b.min with
      | error e => rw [hmin] at h; cases h
      | ok rn =>
        rw [hmin] at h
        cases rn with
        | false =>
          cases h
          exact ⟨hnm, fun hw => by simpa using (heos _ _ hmin).2 hw⟩
        | true =>
          have hwm : Works f b.min := (heos _ _ hmin).1 rfl
          simp only [Bool.not_true, Bool.false_eq_true, if_false] at h
          cases hs : bisectLoopE tol (fun x => (eosOk f x).map fun ok => (⟨ok, ok⟩ : Probe)) n
              ⟨b.min, b.max, none, []⟩ with
          | error e => rw [hs] at h; cases h
          | ok s =>
            rw [hs] at h
            have hI : (fun s : BisectState => b.min ≤ s.lo ∧ s.lo ≤ s.hi ∧ s.hi ≤ b.max ∧ Works f s.lo ∧
                ¬ Works f s.hi ∧ s.lo = s.last.getD b.min) s ∧ Close tol n (b.max - b.min) s.lo s.hi := by
              have hlink := loopE_total tol _ n _ _ hs
              constructor
              · have hgen : ∀ (k : Nat) (s s' : BisectState), bisectLoopE tol
                    (fun x => (eosOk f x).map fun ok => (⟨ok, ok⟩ : Probe)) k s = .ok s' →
                    (b.min ≤ s.lo ∧ s.lo ≤ s.hi ∧ s.hi ≤ b.max ∧ Works f s.lo ∧
                      ¬ Works f s.hi ∧ s.lo = s.last.getD b.min) →
                    (b.min ≤ s'.lo ∧ s'.lo ≤ s'.hi ∧ s'.hi ≤ b.max ∧ Works f s'.lo ∧
                      ¬ Works f s'.hi ∧ s'.lo = s'.last.getD b.min) := by
                  intro k
                  induction k with
                  | zero => intro s s' hk hi; cases hk; exact hi
                  | succ k ih =>
                    intro s s' hk hi
                    obtain ⟨i1, i2, i3, i4, i5, i6⟩ := hi
                    unfold bisectLoopE at hk
                    cases he : eosOk f ((s.lo + s.hi) / 2) with
                    | error e => rw [he] at hk; cases hk
                    | ok r =>
                      rw [he] at hk
                      simp only [Except.map] at hk
                      have hst : (fun s : BisectState => b.min ≤ s.lo ∧ s.lo ≤ s.hi ∧ s.hi ≤ b.max ∧ Works f s.lo ∧
                          ¬ Works f s.hi ∧ s.lo = s.last.getD b.min)
                          (bisectStep (fun _ => (⟨r, r⟩ : Probe)) s) := by
                        unfold bisectStep
                        cases r with
                        | true =>
                          have hw := (heos _ _ he).1 rfl
                          simp only [if_true, Option.getD_some]
                          exact ⟨by linarith, by linarith, i3, hw, i5, trivial⟩
                        | false =>
                          have hw : ¬ Works f ((s.lo + s.hi) / 2) := fun hw => by simpa using (heos _ _ he).2 hw
                          simp only [Bool.false_eq_true, if_false]
                          exact ⟨i1, by linarith, by linarith, i4, hw, i6⟩
                      split at hk
                      · cases hk; exact hst
                      · exact ih _ _ hk hst
                exact hgen n _ _ hs ⟨le_refl _, hb, le_refl _, hwm, hnm, rfl⟩
              · rw [hlink]; exact loop_close tol _ n ⟨b.min, b.max, none, []⟩
            obtain ⟨⟨i1, i2, i3, i4, i5, i6⟩, hcl⟩ := hI
            have hlt : s.lo < s.hi := lt_of_le_of_ne i2 (by intro he; rw [he] at i4; exact i5 i4)
            have hr : r = some s.lo := by
              rw [i6]
              simp only at h
              split at h
              · rename_i hl; cases h; rw [hl]; rfl
              · rename_i hl; cases h; rw [hl]; rfl
            subst hr
            exact ⟨i1, by linarith, i4, fun _ => ⟨hwm, s.hi, hlt, i3, i5, hcl⟩⟩

/-! ## The finder -/

/-- **At most one retry.** After the equation of state failed at the largest speed, the search is repeated on a smaller
range whose end works, so it is never repeated a second time. -/
theorem C55_one_retry (tol : ℚ) (n : Nat) (root : RootFinder) (target : ℚ) (f : Sim) (b : Boundary)
    (hb : b.min ≤ b.max) (k : Nat) :
    findSpeed tol n root target f (k + 2) b = findSpeed tol n root target f 2 b := by
  unfold findSpeed
  cases hf : f b.max with
  | ok p => rfl
  | error e =>
    cases e with
    | thermo =>
      simp only
      cases hh : highestTrueE tol n b (eosOk f) with
      | error e => rfl
      | ok r =>
        cases r with
        | none => rfl
        | some v =>
          obtain ⟨-, -, ⟨p, hp⟩, -⟩ := highest_ok tol n b hb f _ hh
          simp only [Bind.bind, Except.bind, findSpeed, hp]
    | _ => rfl

/-- The part after the largest speed. -/
theorem below (tol : ℚ) (n : Nat) (root : RootFinder) (ε : ℚ) (hr : RootWithin root ε) (target : ℚ) (f : Sim)
    (b : Boundary) (hb : b.min ≤ b.max) (pMax : ℚ) (hp : f b.max = .ok pMax) (fd : Finding)
    (h : speedBelowMax tol n root b target f pMax = .ok fd) :
    b.min ≤ fd.config ∧ fd.config ≤ b.max ∧
    match fd.failure with
    | none => ∃ p, f fd.config = .ok p ∧ |p - target| ≤ ε ∧ target ≤ pMax
    | some (.unreachable p t false) => t = target ∧ fd.config = b.max ∧ p = pMax ∧ p < target
    | some (.unreachable p t true) => t = target ∧ minSpeed tol n b f = .ok (fd.config, p) ∧
        f fd.config = .ok p ∧ target < p
    | some (.surge p q) => fd.config = b.min ∧ f b.min = .error (.surge p q)
    | _ => False := by
  unfold speedBelowMax at h
  split at h
  · rename_i hc
    cases h
    exact ⟨hb, le_refl _, rfl, rfl, rfl, hc⟩
  · rename_i hc
    push Not at hc
    cases hm : minSpeed tol n b f with
    | error e =>
      rw [hm] at h
      obtain ⟨g1, g2, g3, g4, -⟩ := C55_min_error tol n b hb f e hm
      cases e with
      | surge x y => cases h; exact ⟨le_refl _, hb, rfl, g4 x y rfl⟩
      | stonewall x y => exact absurd rfl (g1 x y)
      | insufficient x y => exact absurd rfl (g2 x y)
      | _ => cases h
    | ok r =>
      obtain ⟨lo, pLo⟩ := r
      rw [hm] at h
      obtain ⟨l1, l2, l3, -⟩ := C55_min tol n b hb f lo pLo hm
      simp only at h
      split at h
      · rename_i hgt
        cases h
        exact ⟨l1, l2, rfl, rfl, l3, hgt⟩
      · rename_i hgt
        push Not at hgt
        rw [if_pos ⟨hgt, hc⟩] at h
        cases hroot : root ⟨lo, b.max⟩ (fun x => (f x).map (· - target)) with
        | error e => rw [hroot] at h; cases h
        | ok x =>
          rw [hroot] at h
          cases h
          obtain ⟨r1, r2, y, hy, hye⟩ := hr _ _ _ hroot
          simp only at r1 r2
          refine ⟨by simp only; linarith, r2, ?_⟩
          simp only
          cases hfx : f x with
          | error e => rw [hfx] at hy; cases hy
          | ok p => rw [hfx] at hy; cases hy; exact ⟨p, rfl, hye, hc⟩

/-- **What an answer means.** For any simulation. The configuration is in the range. Success: the outlet pressure is
within the tolerance of the root finder of the target. "Too low" is reported at the largest usable speed with the
pressure there, "too high" at the smallest one. Capacity errors are reported at the end of the range where they
occurred; a failed equation of state only when neither end of the range works. -/
theorem C55_find (tol : ℚ) (n : Nat) (root : RootFinder) (ε : ℚ) (hr : RootWithin root ε) (target : ℚ) (f : Sim)
    (b : Boundary) (hb : b.min ≤ b.max) (fd : Finding) (h : findSpeed tol n root target f 2 b = .ok fd) :
    b.min ≤ fd.config ∧ fd.config ≤ b.max ∧
    match fd.failure with
    | none => ∃ p, f fd.config = .ok p ∧ |p - target| ≤ ε
    | some (.unreachable p t false) => t = target ∧ Top tol n b f fd.config ∧ f fd.config = .ok p ∧ p < target
    | some (.unreachable p t true) => t = target ∧ f fd.config = .ok p ∧ target < p ∧
        ∃ top, Top tol n b f top ∧ minSpeed tol n ⟨b.min, top⟩ f = .ok (fd.config, p)
    | some (.surge p q) => f fd.config = .error (.surge p q) ∧ (fd.config = b.min ∨ fd.config = b.max)
    | some (.stonewall p q) => f fd.config = .error (.stonewall p q) ∧ fd.config = b.max
    | some (.insufficient p q) => f fd.config = .error (.insufficient p q) ∧ fd.config = b.max
    | some .thermo => f fd.config = .error .thermo ∧ fd.config = b.max ∧ ¬ Works f b.min := by
  unfold findSpeed at h
  cases hf : f b.max with
  | ok pMax =>
    rw [hf] at h
    have hbel := below tol n root ε hr target f b hb pMax hf fd h
    obtain ⟨g1, g2, g3⟩ := hbel
    refine ⟨g1, g2, ?_⟩
    have hnt : f b.max ≠ .error .thermo := by rw [hf]; simp
    cases hfail : fd.failure with
    | none =>
      rw [hfail] at g3
      obtain ⟨p, k1, k2, -⟩ := g3
      exact ⟨p, k1, k2⟩
    | some fl =>
      rw [hfail] at g3
      cases fl with
      | unreachable p t above =>
        cases above with
        | false =>
          obtain ⟨k1, k2, k3, k4⟩ := g3
          exact ⟨k1, Or.inl ⟨k2, hnt⟩, by rw [k2, k3]; exact hf, k4⟩
        | true =>
          obtain ⟨k1, k2, k3, k4⟩ := g3
          exact ⟨k1, k3, k4, b.max, Or.inl ⟨rfl, hnt⟩, k2⟩
      | surge p q => exact ⟨by rw [g3.1]; exact g3.2, Or.inl g3.1⟩
      | stonewall p q => exact absurd g3 id
      | insufficient p q => exact absurd g3 id
      | thermo => exact absurd g3 id
  | error e =>
    rw [hf] at h
    cases e with
    | stonewall p q => cases h; exact ⟨hb, le_refl _, hf, rfl⟩
    | surge p q => cases h; exact ⟨hb, le_refl _, hf, Or.inr rfl⟩
    | insufficient p q => cases h; exact ⟨hb, le_refl _, hf, rfl⟩
    | thermo =>
      simp only at h
      cases hh : highestTrueE tol n b (eosOk f) with
      | error e => rw [hh] at h; cases h
      | ok r =>
        rw [hh] at h
        have hho := highest_ok tol n b hb f _ hh
        cases r with
        | none =>
          simp only [Bind.bind, Except.bind, Pure.pure, Except.pure] at h
          cases h
          exact ⟨hb, le_refl _, hf, rfl, hho.2⟩
        | some v =>
          obtain ⟨v1, v2, ⟨pv, hpv⟩, v4⟩ := hho
          obtain ⟨v5, hi, v6, v7, v8, v9⟩ := v4 (by rintro ⟨p, hp⟩; rw [hf] at hp; cases hp)
          have htop : Top tol n b f v := Or.inr ⟨hf, v1, ⟨pv, hpv⟩, hi, v6, v7, v8, v9⟩
          simp only [Bind.bind, Except.bind, findSpeed, hpv] at h
          have hbel := below tol n root ε hr target f ⟨b.min, v⟩ v1 pv hpv fd h
          obtain ⟨g1, g2, g3⟩ := hbel
          simp only at g1 g2
          refine ⟨g1, by linarith, ?_⟩
          cases hfail : fd.failure with
          | none =>
            rw [hfail] at g3
            obtain ⟨p, k1, k2, -⟩ := g3
            exact ⟨p, k1, k2⟩
          | some fl =>
            rw [hfail] at g3
            cases fl with
            | unreachable p t above =>
              cases above with
              | false =>
                obtain ⟨k1, k2, k3, k4⟩ := g3
                simp only at k2
                exact ⟨k1, by rw [k2]; exact htop, by rw [k2, k3]; exact hpv, k4⟩
              | true =>
                obtain ⟨k1, k2, k3, k4⟩ := g3
                exact ⟨k1, k3, k4, v, htop, k2⟩
            | surge p q => exact ⟨by rw [g3.1]; exact g3.2, Or.inl g3.1⟩
            | stonewall p q => exact absurd g3 id
            | insufficient p q => exact absurd g3 id
            | thermo => exact absurd g3 id
    | _ => cases h

/-- **The assertion never fires.** An AssertionError out of the finder was raised by the simulation or the root
finder. -/
theorem C55_assertion (tol : ℚ) (n : Nat) (root : RootFinder) (target : ℚ) (f : Sim) (b : Boundary)
    (hb : b.min ≤ b.max) (h : findSpeed tol n root target f 2 b = .error .assertion) :
    (∃ x, f x = .error .assertion) ∨ ∃ b' g, root b' g = .error .assertion := by
  have hbelow : ∀ (b : Boundary), b.min ≤ b.max → ∀ pMax, speedBelowMax tol n root b target f pMax = .error .assertion →
      (∃ x, f x = .error .assertion) ∨ ∃ b' g, root b' g = .error .assertion := by
    intro b hb pMax h
    unfold speedBelowMax at h
    split at h
    · cases h
    · rename_i hc
      push Not at hc
      cases hm : minSpeed tol n b f with
      | error e =>
        rw [hm] at h
        obtain ⟨-, -, -, -, g5⟩ := C55_min_error tol n b hb f e hm
        cases e with
        | assertion =>
          rcases g5 with g5 | g5
          · cases g5
          · exact Or.inl g5
        | _ => cases h
      | ok r =>
        obtain ⟨lo, pLo⟩ := r
        rw [hm] at h
        simp only at h
        split at h
        · cases h
        · rename_i hgt
          push Not at hgt
          rw [if_pos ⟨hgt, hc⟩] at h
          cases hroot : root ⟨lo, b.max⟩ (fun x => (f x).map (· - target)) with
          | error e => rw [hroot] at h; cases h; exact Or.inr ⟨_, _, hroot⟩
          | ok x => rw [hroot] at h; cases h
  unfold findSpeed at h
  cases hf : f b.max with
  | ok pMax => rw [hf] at h; exact hbelow b hb pMax h
  | error e =>
    rw [hf] at h
    cases e with
    | thermo =>
      simp only at h
      cases hh : highestTrueE tol n b (eosOk f) with
      | error e =>
        rw [hh] at h
        cases h
        left
        have heos : ∀ x, eosOk f x = .error .assertion → f x = .error .assertion := by
          intro x hx
          unfold eosOk at hx
          cases hfx : f x with
          | ok p => rw [hfx] at hx; cases hx
          | error e => rw [hfx] at hx; cases e <;> cases hx; rfl
        unfold highestTrueE at hh
        cases h1 : eosOk f b.max with
        | error e => rw [h1] at hh; cases hh; exact ⟨_, heos _ h1⟩
        | ok r1 =>
          rw [h1] at hh
          cases r1 with
          | true => cases hh
          | false =>
            simp only [Bind.bind, Except.bind, Bool.false_eq_true, if_false] at hh
            cases h2 : eosOk f b.min with
            | error e => rw [h2] at hh; cases hh; exact ⟨_, heos _ h2⟩
            | ok r2 =>
              rw [h2] at hh
              cases r2 with
              | false => cases hh
              | true =>
                simp only [Bool.not_true, Bool.false_eq_true, if_false] at hh
                cases hs : bisectLoopE tol (fun x => (eosOk f x).map fun ok => (⟨ok, ok⟩ : Probe)) n
                    ⟨b.min, b.max, none, []⟩ with
                | error e =>
                  rw [hs] at hh
                  cases hh
                  have hgen : ∀ (k : Nat) (s : BisectState), bisectLoopE tol
                      (fun x => (eosOk f x).map fun ok => (⟨ok, ok⟩ : Probe)) k s = .error .assertion →
                      ∃ x, f x = .error .assertion := by
                    intro k
                    induction k with
                    | zero => intro s hk; cases hk
                    | succ k ih =>
                      intro s hk
                      unfold bisectLoopE at hk
                      cases he : eosOk f ((s.lo + s.hi) / 2) with
                      | error e => rw [he] at hk; cases hk; exact ⟨_, heos _ he⟩
                      | ok r =>
                        rw [he] at hk
                        simp only [Except.map] at hk
                        split at hk
                        · cases hk
                        · exact ih _ hk
                  exact hgen n _ hs
                | ok s =>
                  rw [hs] at hh
                  simp only at hh
                  split at hh <;> cases hh
      | ok r =>
        rw [hh] at h
        have hho := highest_ok tol n b hb f _ hh
        cases r with
        | none => cases h
        | some v =>
          obtain ⟨v1, v2, ⟨pv, hpv⟩, v4⟩ := hho
          simp only [Bind.bind, Except.bind, findSpeed, hpv] at h
          exact hbelow ⟨b.min, v⟩ v1 pv h
    | assertion => exact Or.inl ⟨_, hf⟩
    | _ => cases h

/-- **"Too low" is genuine.** When the outlet pressure never falls with speed, no speed that works reaches the target,
except possibly one above the reported speed when that is the resolution of the search below a speed that does not
work. -/
theorem C55_too_low (tol : ℚ) (n : Nat) (root : RootFinder) (ε : ℚ) (hr : RootWithin root ε) (target : ℚ) (f : Sim)
    (b : Boundary) (hb : b.min ≤ b.max) (hmono : ∀ x y p q, x ≤ y → f x = .ok p → f y = .ok q → p ≤ q) (fd : Finding)
    (h : findSpeed tol n root target f 2 b = .ok fd) (q t : ℚ) (hq : fd.failure = some (.unreachable q t false))
    (y p : ℚ) (h2 : y ≤ b.max) (hy : f y = .ok p) :
    p < target ∨ (fd.config < y ∧ f b.max = .error .thermo ∧
      ∃ hi, ¬ Works f hi ∧ Close tol n (b.max - b.min) fd.config hi) := by
  obtain ⟨c1, c2, c3⟩ := C55_find tol n root ε hr target f b hb fd h
  rw [hq] at c3
  obtain ⟨-, ht, k1, k2⟩ := c3
  by_cases hle : y ≤ fd.config
  · left
    have := hmono y fd.config p q hle hy k1
    linarith
  · right
    push Not at hle
    rcases ht with ⟨he, -⟩ | ⟨hth, -, -, hi, -, -, k5, k6⟩
    · rw [he] at hle; linarith
    · exact ⟨hle, hth, hi, k5, k6⟩

/-- **"Too high" is genuine.** When moreover there is no speed that is too slow between two that work, and nothing but that
below one that works, every speed
that works gives more than the target, except possibly one within the resolution of the search below the reported
speed. -/
theorem C55_too_high (tol : ℚ) (n : Nat) (root : RootFinder) (ε : ℚ) (hr : RootWithin root ε) (target : ℚ) (f : Sim)
    (b : Boundary) (hb : b.min ≤ b.max) (hmono : ∀ x y p q, x ≤ y → f x = .ok p → f y = .ok q → p ≤ q)
    (hslow : ∀ x y z, x ≤ y → y ≤ z → Works f x → Works f z → ¬ TooSlow f y)
    (hslow' : ∀ x y, x < y → Works f y → Works f x ∨ TooSlow f x) (fd : Finding)
    (h : findSpeed tol n root target f 2 b = .ok fd) (q t : ℚ) (hq : fd.failure = some (.unreachable q t true))
    (y p : ℚ) (h1 : b.min ≤ y) (hy : f y = .ok p) :
    target < p ∨ (y < fd.config ∧ ∃ top lo, top ≤ b.max ∧ lo ≤ y ∧ Close tol n (top - b.min) lo fd.config) := by
  obtain ⟨c1, c2, c3⟩ := C55_find tol n root ε hr target f b hb fd h
  rw [hq] at c3
  obtain ⟨-, k1, k2, top, ht, hms⟩ := c3
  have htop : b.min ≤ top ∧ top ≤ b.max := by
    rcases ht with ⟨ht, -⟩ | ⟨-, ht, -, hi, k3, k4, -⟩
    · rw [ht]; exact ⟨hb, le_refl _⟩
    · exact ⟨ht, by linarith⟩
  by_cases hle : fd.config ≤ y
  · left
    have := hmono fd.config y q p hle k1 hy
    linarith
  · right
    push Not at hle
    refine ⟨hle, ?_⟩
    obtain ⟨m1, m2, m3, m4, m5⟩ := C55_min tol n ⟨b.min, top⟩ htop.1 f _ _ hms
    simp only at m1 m2 m4 m5
    have hne : fd.config ≠ b.min := by intro he; rw [he] at hle; linarith
    have hts := m5 hne
    have hlt : b.min < top := by linarith
    have hs : search tol n b.min top (total (speedProbe f)) = some fd.config := by
      unfold minSpeed at hms
      have hup : (do
          let x ← searchE tol n ⟨b.min, top⟩ (speedProbe f)
          let p ← f x
          return (x, p) : Except PErr (ℚ × ℚ)) = .ok (fd.config, q) →
          search tol n b.min top (total (speedProbe f)) = some fd.config := by
        intro hx
        cases hs : searchE tol n ⟨b.min, top⟩ (speedProbe f) with
        | error e' => rw [hs] at hx; cases hx
        | ok z =>
          rw [hs] at hx
          simp only [Bind.bind, Except.bind] at hx
          cases hz : f z with
          | error e => rw [hz] at hx; cases hx
          | ok pz =>
            rw [hz] at hx
            cases hx
            exact searchE_ok tol n ⟨b.min, top⟩ _ _ hs
      rcases hts with ⟨u, v, hf⟩ | hf | ⟨u, v, hf⟩
      · simp only [hf] at hms; exact hup hms
      · simp only [hf] at hms; exact hup hms
      · simp only [hf] at hms; exact hup hms
    obtain ⟨e1, -⟩ := last_hi tol n b.min top (total (speedProbe f)) hlt (fun x hx => (speed_probe f x hx).1) (by
      intro x z z1 z2 z3 ha
      rcases hslow' x z z2 (speed_probe f z ha).2 with ⟨p, hp⟩ | hsl
      · left; unfold total speedProbe; rw [hp]
      · right
        unfold total speedProbe
        rcases hsl with ⟨u, v, hf⟩ | hf | ⟨u, v, hf⟩ <;> rw [hf]) _ hs
    have he := ends tol n b.min top (total (speedProbe f)) hlt
    refine ⟨top, _, htop.2, ?_, e1 ▸ loop_close tol _ n ⟨b.min, top, none, []⟩⟩
    have hlow : TooSlow f (bisect tol n b.min top (total (speedProbe f))).lo := by
      rcases he.lo with h1 | h1
      · rw [h1]; exact hts
      · exact speed_slow f _ h1
    by_contra hc
    push Not at hc
    exact hslow y _ fd.config hc.le (by rw [e1]; exact he.inside.2.1.le) ⟨p, hy⟩ ⟨q, k1⟩ hlow

/-! ## Findings -/

/-- **Finding.** Too slow below 10, the equation of state fails above 90, everything in between works: the finder
reports that the equation of state fails at all speeds of the range, because only the two ends were tried. -/
theorem C55_eos_everywhere (root : RootFinder) :
    findSpeed (1 / 100) 20 root 50
      (fun x => if x < 10 then .error (.stonewall x 10) else if 90 < x then .error .thermo else .ok x) 2 ⟨0, 100⟩ =
      .ok ⟨100, some .thermo⟩ := by
  have h1 : highestTrueE (1 / 100) 20 ⟨0, 100⟩ (eosOk
      (fun x => if x < 10 then .error (.stonewall x 10) else if 90 < x then .error .thermo else .ok x)) =
      .ok none := by decide +kernel
  unfold findSpeed
  rw [h1]
  rfl

/-- **Finding.** The largest speed gives exactly the target pressure, but the speeds that work are fewer than the
search resolves and the largest one is never tried by it: DidNotConvergeError instead of an answer. -/
theorem C55_max_speed_untried (root : RootFinder) :
    findSpeed (1 / 100) 20 root 50 (fun x => if x < 100 then .error (.stonewall x 100) else .ok 50) 2 ⟨0, 100⟩ =
      .error .notConverged := by
  have h1 : minSpeed (1 / 100) 20 ⟨0, 100⟩ (fun x => if x < 100 then .error (.stonewall x 100) else .ok 50) =
      .error .notConverged := by decide +kernel
  have h2 : (fun x : ℚ => (if x < 100 then .error (.stonewall x 100) else .ok 50 : Except PErr ℚ)) 100 = .ok 50 := rfl
  unfold findSpeed
  simp only at h2 ⊢
  rw [h2]
  simp only
  unfold speedBelowMax
  rw [h1]
  rfl

/-! ## Examples -/

/-- Too slow below 10, the equation of state fails above 90 or not at all, outlet pressure twice the speed. -/
def machine (eos : ℚ) (x : ℚ) : Except PErr ℚ :=
  if x < 10 then .error (.stonewall x 10) else if eos < x then .error .thermo else .ok (2 * x)

/-- A root finder that bisects an increasing function. -/
def rising : RootFinder := fun b g =>
  (bisectLoopE 0 (fun x => (g x).map fun y => ⟨decide (y < 0), true⟩) 12 ⟨b.min, b.max, none, []⟩).bind
    fun s => match s.last with
      | none => .error .value
      | some x => .ok x

example : (match findSpeed (1 / 100) 20 rising 60 (machine 100) 2 ⟨0, 100⟩ with
    | .ok ⟨x, none⟩ => decide (|x - 30| < 1 / 10)
    | _ => false) = true := by decide +kernel

example : findSpeed (1 / 100) 20 rising 300 (machine 100) 2 ⟨0, 100⟩ =
    .ok ⟨100, some (.unreachable 200 300 false)⟩ := by decide +kernel

example : (match findSpeed (1 / 100) 20 rising 10 (machine 100) 2 ⟨0, 100⟩ with
    | .ok ⟨x, some (.unreachable p t true)⟩ => decide (10 ≤ x ∧ x < 11 ∧ p = 2 * x ∧ t = 10)
    | _ => false) = true := by decide +kernel

example : (match findSpeed (1 / 100) 20 rising 190 (machine 90) 2 ⟨20, 100⟩ with
    | .ok ⟨x, some (.unreachable p t false)⟩ => decide (89 ≤ x ∧ x < 91 ∧ p = 2 * x ∧ t = 190)
    | _ => false) = true := by decide +kernel

example : findSpeed (1 / 100) 20 rising 190 (machine 90) 2 ⟨0, 5⟩ = .ok ⟨5, some (.stonewall 5 10)⟩ := by
  decide +kernel

theorem machine_mono (x y p q : ℚ) (h : x ≤ y) (hx : machine 100 x = .ok p) (hy : machine 100 y = .ok q) : p ≤ q := by
  unfold machine at hx hy
  split at hx
  · cases hx
  · split at hx
    · cases hx
    · split at hy
      · cases hy
      · split at hy
        · cases hy
        · cases hx; cases hy; linarith

end Verif.C55
