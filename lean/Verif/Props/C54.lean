import Verif.Lemmas.BisectE
import Verif.Props.C40

/-!
# C54: the recirculation rate finder returns a rate that works, and its failures are genuine
-/

namespace Verif.C54
open Verif.Process Verif.Search Verif.Finders Verif.BisectE Verif.C27 Verif.C40

/-! ## Specification -/

/-- The simulation succeeds at `x`. -/
def Works (f : Sim) (x : ℚ) : Prop := ∃ p, f x = .ok p

/-- Too little flow, within capacity, too much flow; nothing for the other exceptions. -/
def phase : Except PErr ℚ → Option Nat
  | .error (.surge _ _) => some 0
  | .ok _ => some 1
  | .error (.stonewall _ _) => some 2
  | .error (.insufficient _ _) => some 2
  | .error _ => none

/-- On the range, more recirculation takes the simulation from too little flow through capacity to too much flow. -/
def Phased (f : Sim) (b : Boundary) : Prop :=
  ∀ x y, b.min ≤ x → x ≤ y → y ≤ b.max → ∃ i j, phase (f x) = some i ∧ phase (f y) = some j ∧ i ≤ j

/-- `[u, v]` are rates within capacity, and the window is wider than the bracket a search ends with. -/
structure Window (tol : ℚ) (n : Nat) (f : Sim) (b : Boundary) (u v : ℚ) : Prop where
  inside : b.min ≤ u ∧ u ≤ v ∧ v ≤ b.max
  works : Works f u ∧ Works f v
  wide : tol * max (max |b.min| |b.max|) 1 ≤ v - u ∧ (b.max - b.min) / 2 ^ n < v - u

/-- The pressure is below, at or above the target, given its tolerance. -/
def Meets (value ptol p : ℚ) : Prop := |p - value| ≤ ptol

/-! ## Lemmas -/

theorem probe_down (f : Sim) (x : ℚ) (h : (total (recircProbe true f) x).accepted = true) :
    (total (recircProbe true f) x).higher = false ∧ Works f x := by
  unfold total recircProbe at h ⊢
  unfold Works
  cases hf : f x with
  | ok p => simp
  | error e => rw [hf] at h; cases e <;> simp at h

theorem probe_up (f : Sim) (x : ℚ) (h : (total (recircProbe false f) x).accepted = true) :
    (total (recircProbe false f) x).higher = true ∧ Works f x := by
  unfold total recircProbe at h ⊢
  unfold Works
  cases hf : f x with
  | ok p => simp
  | error e => rw [hf] at h; cases e <;> simp at h

theorem probe_same (f : Sim) (x : ℚ) :
    (total (recircProbe true f) x).accepted = (total (recircProbe false f) x).accepted := by
  unfold total recircProbe
  cases f x with
  | ok p => rfl
  | error e => cases e <;> rfl

theorem probe_rejected (f : Sim) (x : ℚ) (h : (total (recircProbe true f) x).accepted = false) :
    (total (recircProbe true f) x).higher = (total (recircProbe false f) x).higher := by
  unfold total recircProbe at h ⊢
  cases hf : f x with
  | ok p => rw [hf] at h; simp at h
  | error e => cases e <;> rfl

theorem phase_accepted (m : Bool) (f : Sim) (x : ℚ) (h : phase (f x) = some 1) :
    (total (recircProbe m f) x).accepted = true := by
  unfold total recircProbe
  unfold phase at h
  cases hf : f x with
  | ok p => rfl
  | error e => rw [hf] at h; cases e <;> simp at h

theorem works_phase (f : Sim) (x : ℚ) (h : Works f x) : phase (f x) = some 1 := by
  obtain ⟨p, hp⟩ := h; rw [hp]; rfl

theorem phase_works (f : Sim) (x : ℚ) (h : phase (f x) = some 1) : Works f x := by
  unfold phase at h
  cases hf : f x with
  | ok p => exact ⟨p, hf⟩
  | error e => rw [hf] at h; cases e <;> simp at h

theorem phase_surge (m : Bool) (f : Sim) (x : ℚ) (h : phase (f x) = some 0) :
    (total (recircProbe m f) x).higher = true ∧ (total (recircProbe m f) x).accepted = false := by
  unfold total recircProbe
  unfold phase at h
  cases hf : f x with
  | ok p => rw [hf] at h; simp at h
  | error e => rw [hf] at h; cases e <;> simp at h ⊢

theorem phase_stone (m : Bool) (f : Sim) (x : ℚ) (h : phase (f x) = some 2) :
    (total (recircProbe m f) x).higher = false ∧ (total (recircProbe m f) x).accepted = false := by
  unfold total recircProbe
  unfold phase at h
  cases hf : f x with
  | ok p => rw [hf] at h; simp at h
  | error e => rw [hf] at h; cases e <;> simp at h ⊢

theorem phase_cases (f : Sim) (x : ℚ) (i : Nat) (h : phase (f x) = some i) : i = 0 ∨ i = 1 ∨ i = 2 := by
  unfold phase at h
  cases hf : f x with
  | ok p => rw [hf] at h; simp at h; omega
  | error e => rw [hf] at h; cases e <;> simp at h <;> omega

theorem phase_probe (m : Bool) (f : Sim) (x : ℚ) (i : Nat) (h : phase (f x) = some i) :
    ∃ r, recircProbe m f x = .ok r := by
  unfold recircProbe
  unfold phase at h
  cases hf : f x with
  | ok p => exact ⟨_, rfl⟩
  | error e => rw [hf] at h; cases e <;> simp at h ⊢

theorem higher_surge (f : Sim) (x : ℚ) (h : (total (recircProbe true f) x).higher = true) :
    ∃ p q, f x = .error (.surge p q) := by
  unfold total recircProbe at h
  cases hf : f x with
  | ok p => rw [hf] at h; simp at h
  | error e => rw [hf] at h; cases e <;> simp at h ⊢

/-- The bracket of a search within a range is not wider than the `Window` asks for. -/
theorem close_window (tol : ℚ) (ht : 0 ≤ tol) (n : Nat) (f : Sim) (b : Boundary) (u v lo hi : ℚ)
    (hw : Window tol n f b u v) (h1 : b.min ≤ lo) (h2 : lo ≤ hi) (h3 : hi ≤ b.max)
    (hc : Close tol n (b.max - b.min) lo hi) : hi - lo < v - u := by
  rcases hc with hc | hc
  · refine lt_of_lt_of_le (lt_of_lt_of_le hc ?_) hw.wide.1
    apply mul_le_mul_of_nonneg_left _ ht
    have ha : |lo| ≤ max |b.min| |b.max| := abs_le_max_abs_abs h1 (by linarith)
    have hb : |hi| ≤ max |b.min| |b.max| := abs_le_max_abs_abs (by linarith) h3
    exact max_le_max (max_le ha hb) (le_refl _)
  · rw [hc]; exact hw.wide.2

theorem mode_mono (f : Sim) (b : Boundary) (hf : Phased f b) (m : Bool) :
    (∀ x y, b.min ≤ x → x < y → y ≤ b.max → (total (recircProbe m f) y).accepted = true →
      (total (recircProbe m f) x).accepted = true ∨ (total (recircProbe m f) x).higher = true) ∧
    (∀ x y, b.min ≤ x → x < y → y ≤ b.max → (total (recircProbe m f) x).accepted = true →
      (total (recircProbe m f) y).accepted = true ∨ (total (recircProbe m f) y).higher = false) := by
  constructor
  · intro x y h1 h2 h3 ha
    obtain ⟨i, j, hi, hj, hij⟩ := hf x y h1 h2.le h3
    rcases phase_cases f x i hi with rfl | rfl | rfl
    · exact Or.inr (phase_surge m f x hi).1
    · exact Or.inl (phase_accepted m f x hi)
    · rcases phase_cases f y j hj with rfl | rfl | rfl
      · omega
      · omega
      · rw [(phase_stone m f y hj).2] at ha; cases ha
  · intro x y h1 h2 h3 ha
    obtain ⟨i, j, hi, hj, hij⟩ := hf x y h1 h2.le h3
    rcases phase_cases f y j hj with rfl | rfl | rfl
    · have : i = 0 := by omega
      subst this
      rw [(phase_surge m f x hi).2] at ha; cases ha
    · exact Or.inl (phase_accepted m f y hj)
    · exact Or.inr (phase_stone m f y hj).1

/-! ## The smallest and the largest rate -/

/-- **Smallest rate: works.** For any simulation, the smallest rate found is in the range and the simulation succeeds
there; it is the start of the range exactly when the simulation succeeds there. -/
theorem C54_min (tol : ℚ) (n : Nat) (b : Boundary) (hb : b.min ≤ b.max) (f : Sim) (x : ℚ)
    (h : recircMin tol n b f = .ok x) :
    b.min ≤ x ∧ x ≤ b.max ∧ Works f x ∧ (Works f b.min ↔ x = b.min) ∧
      (x ≠ b.min → ∃ p q, f b.min = .error (.surge p q)) := by
  unfold recircMin at h
  cases hf : f b.min with
  | ok p =>
    rw [hf] at h
    cases h
    exact ⟨le_refl _, hb, ⟨p, hf⟩, by simp [Works, hf], by simp⟩
  | error e =>
    rw [hf] at h
    cases e with
    | surge p q =>
      simp only at h
      have hs := searchE_ok tol n b _ x h
      obtain ⟨h1, h2, h3⟩ := (C27_search tol n b.min b.max _ hb).1 x hs
      have hw := (probe_down f x h3).2
      refine ⟨h1, h2, hw, ?_, fun _ => ⟨p, q, rfl⟩⟩
      constructor
      · rintro ⟨r, hr⟩; rw [hf] at hr; cases hr
      · intro he; rw [← he]; exact hw
    | _ => cases h

/-- **Largest rate: works.** -/
theorem C54_max (tol : ℚ) (n : Nat) (b : Boundary) (hb : b.min ≤ b.max) (f : Sim) (x : ℚ)
    (h : recircMax tol n b f = .ok x) :
    b.min ≤ x ∧ x ≤ b.max ∧ Works f x ∧ (Works f b.max ↔ x = b.max) ∧
      (x ≠ b.max → ∃ p q, f b.max = .error (.stonewall p q)) := by
  unfold recircMax at h
  cases hf : f b.max with
  | ok p =>
    rw [hf] at h
    cases h
    exact ⟨hb, le_refl _, ⟨p, hf⟩, by simp [Works, hf], by simp⟩
  | error e =>
    rw [hf] at h
    cases e with
    | stonewall p q =>
      simp only at h
      have hs := searchE_ok tol n b _ x h
      obtain ⟨h1, h2, h3⟩ := (C27_search tol n b.min b.max _ hb).1 x hs
      have hw := (probe_up f x h3).2
      refine ⟨h1, h2, hw, ?_, fun _ => ⟨p, q, rfl⟩⟩
      constructor
      · rintro ⟨r, hr⟩; rw [hf] at hr; cases hr
      · intro he; rw [← he]; exact hw
    | _ => cases h

/-- **The smallest rate is not above the largest.** For any simulation, however it behaves in between. -/
theorem C54_min_le_max (tol : ℚ) (n : Nat) (b : Boundary) (hb : b.min ≤ b.max) (f : Sim) (lo hi : ℚ)
    (hlo : recircMin tol n b f = .ok lo) (hhi : recircMax tol n b f = .ok hi) : lo ≤ hi := by
  obtain ⟨l1, l2, l3, l4, l5⟩ := C54_min tol n b hb f lo hlo
  obtain ⟨g1, g2, g3, g4, g5⟩ := C54_max tol n b hb f hi hhi
  by_cases hl : lo = b.min
  · rw [hl]; exact g1
  by_cases hh : hi = b.max
  · rw [hh]; exact l2
  obtain ⟨p, q, hp⟩ := l5 hl
  obtain ⟨p', q', hp'⟩ := g5 hh
  unfold recircMin at hlo
  unfold recircMax at hhi
  rw [hp] at hlo
  rw [hp'] at hhi
  exact down_le_up tol (total (recircProbe true f)) (total (recircProbe false f)) (probe_same f)
    (fun x hx => (probe_down f x hx).1) (fun x hx => (probe_up f x hx).1) (probe_rejected f) n ⟨b.min, b.max, none, []⟩
    hb rfl lo hi (searchE_ok tol n b _ lo hlo) (searchE_ok tol n b _ hi hhi)

/-- **Smallest rate: smallest.** When more recirculation takes the simulation from surge through capacity to
stonewall, every rate within capacity is at least the rate found, up to the resolution of the search. -/
theorem C54_smallest (tol : ℚ) (n : Nat) (b : Boundary) (hb : b.min ≤ b.max) (f : Sim) (hf : Phased f b) (x : ℚ)
    (h : recircMin tol n b f = .ok x) :
    x = b.min ∨ ∃ lo, b.min ≤ lo ∧ lo < x ∧ Close tol n (b.max - b.min) lo x ∧
      (∃ p q, f lo = .error (.surge p q)) ∧ ∀ y, b.min ≤ y → y ≤ b.max → Works f y → lo < y := by
  obtain ⟨l1, l2, l3, l4, l5⟩ := C54_min tol n b hb f x h
  by_cases hl : x = b.min
  · exact Or.inl hl
  right
  obtain ⟨p, q, hp⟩ := l5 hl
  unfold recircMin at h
  rw [hp] at h
  have hs := searchE_ok tol n b _ x h
  have hlt : b.min < b.max := lt_of_lt_of_le (lt_of_le_of_ne l1 (Ne.symm hl)) l2
  obtain ⟨e1, -⟩ := last_hi tol n b.min b.max (total (recircProbe true f)) hlt (fun x hx => (probe_down f x hx).1)
    (mode_mono f b hf true).1 x hs
  have he := ends tol n b.min b.max (total (recircProbe true f)) hlt
  have hlow : ∃ p q, f (bisect tol n b.min b.max (total (recircProbe true f))).lo = .error (.surge p q) := by
    rcases he.lo with h1 | h1
    · rw [h1]; exact ⟨p, q, hp⟩
    · exact higher_surge f _ h1
  refine ⟨_, he.inside.1, e1 ▸ he.inside.2.1, e1 ▸ loop_close tol _ n ⟨b.min, b.max, none, []⟩, hlow, ?_⟩
  intro y h1 h2 hy
  by_contra hc
  push Not at hc
  obtain ⟨p', q', hq⟩ := hlow
  obtain ⟨i, j, hi, hj, hij⟩ := hf y _ h1 hc (by linarith [he.inside.2.1, he.inside.2.2])
  rw [works_phase f y hy] at hi
  rw [hq] at hj
  cases hi
  cases hj
  omega

/-- **Largest rate: largest.** -/
theorem C54_largest (tol : ℚ) (n : Nat) (b : Boundary) (hb : b.min ≤ b.max) (f : Sim) (hf : Phased f b) (x : ℚ)
    (h : recircMax tol n b f = .ok x) :
    x = b.max ∨ ∃ hi, x < hi ∧ hi ≤ b.max ∧ Close tol n (b.max - b.min) x hi ∧
      ¬ Works f hi ∧ ∀ y, b.min ≤ y → y ≤ b.max → Works f y → y < hi := by
  obtain ⟨l1, l2, l3, l4, l5⟩ := C54_max tol n b hb f x h
  by_cases hl : x = b.max
  · exact Or.inl hl
  right
  obtain ⟨p, q, hp⟩ := l5 hl
  unfold recircMax at h
  rw [hp] at h
  have hs := searchE_ok tol n b _ x h
  have hlt : b.min < b.max := lt_of_le_of_lt l1 (lt_of_le_of_ne l2 hl)
  obtain ⟨e1, e2⟩ := last_lo tol n b.min b.max (total (recircProbe false f)) hlt (fun x hx => (probe_up f x hx).1)
    (mode_mono f b hf false).2 x hs
  have he := ends tol n b.min b.max (total (recircProbe false f)) hlt
  have hhi : phase (f (bisect tol n b.min b.max (total (recircProbe false f))).hi) = some 2 := by
    rcases he.hi with h1 | h1
    · rw [h1, hp]; rfl
    · obtain ⟨i, j, hi, hj, hij⟩ := hf _ _ (by linarith [he.inside.1, he.inside.2.1]) (le_refl _) he.inside.2.2
      rcases phase_cases f _ i hi with rfl | rfl | rfl
      · rw [(phase_surge false f _ hi).1] at h1; cases h1
      · rw [(probe_up f _ (phase_accepted false f _ hi)).1] at h1; cases h1
      · exact hi
  refine ⟨_, e1 ▸ he.inside.2.1, he.inside.2.2, e1 ▸ loop_close tol _ n ⟨b.min, b.max, none, []⟩, ?_, ?_⟩
  · intro hw; rw [works_phase f _ hw] at hhi; cases hhi
  intro y h1 h2 hy
  by_contra hc
  push Not at hc
  obtain ⟨i, j, hi, hj, hij⟩ := hf _ y (by linarith [he.inside.1, he.inside.2.1]) hc h2
  rw [works_phase f y hy] at hj
  rw [hhi] at hi
  cases hi
  cases hj
  omega

/-- Both searches succeed when the rates within capacity are not too few. -/
theorem search_found (tol : ℚ) (ht : 0 ≤ tol) (n : Nat) (b : Boundary) (f : Sim) (hf : Phased f b) (u v : ℚ)
    (hw : Window tol n f b u v) (m : Bool) : ∃ x, searchE tol n b (recircProbe m f) = .ok x := by
  obtain ⟨h1, h2, h3⟩ := hw.inside
  have hb : b.min ≤ b.max := by linarith
  rw [searchE_eq tol n b hb]
  · cases hs : search tol n b.min b.max (total (recircProbe m f)) with
    | some x => exact ⟨x, rfl⟩
    | none =>
      exfalso
      have hpow : (0 : ℚ) < 2 ^ n := by positivity
      have hlt : b.min < b.max := by
        have h4 := hw.wide.2
        have : 0 ≤ (b.max - b.min) / 2 ^ n := div_nonneg (by linarith) hpow.le
        linarith
      obtain ⟨g1, g2⟩ := none_bracket tol n b.min b.max (total (recircProbe m f)) hlt u v h1 h2 h3 (by
          intro x x1 x2 hx hr
          by_contra hc
          push Not at hc
          obtain ⟨i, j, hi, hj, hij⟩ := hf u x h1 hc x2
          rw [works_phase f u hw.works.1] at hi
          cases hi
          rcases phase_cases f x j hj with rfl | rfl | rfl
          · omega
          · rw [phase_accepted m f x hj] at hr; cases hr
          · rw [(phase_stone m f x hj).1] at hx; cases hx) (by
          intro x x1 x2 hx hr
          by_contra hc
          push Not at hc
          obtain ⟨i, j, hi, hj, hij⟩ := hf x v x1 hc h3
          rw [works_phase f v hw.works.2] at hj
          cases hj
          rcases phase_cases f x i hi with rfl | rfl | rfl
          · rw [(phase_surge m f x hi).1] at hx; cases hx
          · rw [phase_accepted m f x hi] at hr; cases hr
          · omega) hs
      have he := ends tol n b.min b.max (total (recircProbe m f)) hlt
      have := close_window tol ht n f b u v _ _ hw he.inside.1 he.inside.2.1.le he.inside.2.2
        (loop_close tol _ n ⟨b.min, b.max, none, []⟩)
      linarith
  · intro x x1 x2
    obtain ⟨i, j, hi, hj, hij⟩ := hf x x x1 (le_refl _) x2
    exact phase_probe m f x i hi

/-! ## The finder -/

/-- **Without a target.** A success is the smallest rate within capacity; a failure is the error at the start of the
range, which is stonewall or insufficient inlet pressure. -/
theorem C54_no_target (tol : ℚ) (n : Nat) (root : RootFinder) (b : Boundary) (hb : b.min ≤ b.max) (f : Sim)
    (fd : Finding) (h : findRecirc tol n root b none f = .ok fd) :
    b.min ≤ fd.config ∧ fd.config ≤ b.max ∧
    match fd.failure with
    | none => Works f fd.config ∧ recircMin tol n b f = .ok fd.config
    | some (.stonewall p q) => fd.config = b.min ∧ f b.min = .error (.stonewall p q)
    | some (.insufficient p q) => fd.config = b.min ∧ f b.min = .error (.insufficient p q)
    | _ => False := by
  have hse : ∀ e, (∀ x, recircMin tol n b f = .error e → (∃ p q, e = .stonewall p q) ∨ (∃ p q, e = .insufficient p q) →
      f x = .error e ∨ x ≠ b.min) := by
    intro e x hx he
    by_cases hxb : x = b.min
    · left
      subst hxb
      unfold recircMin at hx
      cases hf : f b.min with
      | ok p => rw [hf] at hx; cases hx
      | error e' =>
        rw [hf] at hx
        cases e' with
        | surge p q =>
          exfalso
          simp only at hx
          have hno : ∀ (k : Nat) (s : BisectState) (e : PErr), bisectLoopE tol (recircProbe true f) k s = .error e →
              ∃ y, f y = .error e ∧ (∀ p q, e ≠ .stonewall p q) ∧ (∀ p q, e ≠ .insufficient p q) := by
            intro k
            induction k with
            | zero => intro s e hk; cases hk
            | succ k ih =>
              intro s e hk
              unfold bisectLoopE at hk
              cases hp : recircProbe true f ((s.lo + s.hi) / 2) with
              | ok r =>
                rw [hp] at hk
                simp only at hk
                split at hk
                · cases hk
                · exact ih _ _ hk
              | error e' =>
                rw [hp] at hk
                cases hk
                unfold recircProbe at hp
                refine ⟨(s.lo + s.hi) / 2, ?_, ?_, ?_⟩
                · cases hfx : f ((s.lo + s.hi) / 2) with
                  | ok y => rw [hfx] at hp; cases hp
                  | error y => rw [hfx] at hp; cases y <;> cases hp <;> rfl
                · intro a c hac
                  subst hac
                  cases hfx : f ((s.lo + s.hi) / 2) with
                  | ok y => rw [hfx] at hp; cases hp
                  | error y => rw [hfx] at hp; cases y <;> cases hp
                · intro a c hac
                  subst hac
                  cases hfx : f ((s.lo + s.hi) / 2) with
                  | ok y => rw [hfx] at hp; cases hp
                  | error y => rw [hfx] at hp; cases y <;> cases hp
          unfold searchE at hx
          cases hs : bisectLoopE tol (recircProbe true f) n ⟨b.min, b.max, none, []⟩ with
          | error e' =>
            rw [hs] at hx
            cases hx
            obtain ⟨y, -, k1, k2⟩ := hno n _ _ hs
            rcases he with ⟨p, q, rfl⟩ | ⟨p, q, rfl⟩
            · exact k1 p q rfl
            · exact k2 p q rfl
          | ok s =>
            rw [hs] at hx
            simp only [Bind.bind, Except.bind] at hx
            split at hx
            · cases hx
              rcases he with ⟨p, q, he⟩ | ⟨p, q, he⟩ <;> cases he
            · cases hx
        | _ => cases hx; rfl
    · exact Or.inr hxb
  unfold findRecirc at h
  cases hm : recircMin tol n b f with
  | ok lo =>
    rw [hm] at h
    cases h
    obtain ⟨l1, l2, l3, -⟩ := C54_min tol n b hb f lo hm
    exact ⟨l1, l2, l3, rfl⟩
  | error e =>
    rw [hm] at h
    cases e with
    | stonewall p q =>
      cases h
      refine ⟨le_refl _, hb, rfl, ?_⟩
      rcases hse _ b.min hm (Or.inl ⟨p, q, rfl⟩) with h | h
      · exact h
      · exact absurd rfl h
    | insufficient p q =>
      cases h
      refine ⟨le_refl _, hb, rfl, ?_⟩
      rcases hse _ b.min hm (Or.inr ⟨p, q, rfl⟩) with h | h
      · exact h
      · exact absurd rfl h
    | _ => cases h

/-- **With a target.** A success is a rate of the range at which the outlet pressure is within the tolerance of the
target (or within the tolerance of the root finder). "Too low" is reported with the smallest rate within capacity and
the pressure there, "too high" with the largest one. -/
theorem C54_target (tol : ℚ) (n : Nat) (root : RootFinder) (ε : ℚ) (hr : RootWithin root ε) (b : Boundary)
    (hb : b.min ≤ b.max) (value ptol : ℚ) (f : Sim) (fd : Finding)
    (h : findRecirc tol n root b (some (value, ptol)) f = .ok fd) :
    b.min ≤ fd.config ∧ fd.config ≤ b.max ∧
    match fd.failure with
    | none => ∃ p, f fd.config = .ok p ∧ (|p - value| ≤ ptol ∨ |p - value| ≤ ε)
    | some (.unreachable p t false) => t = value ∧ recircMin tol n b f = .ok fd.config ∧ f fd.config = .ok p ∧
        p < value ∧ ¬ Meets value ptol p
    | some (.unreachable p t true) => t = value ∧ recircMax tol n b f = .ok fd.config ∧ f fd.config = .ok p ∧
        value < p ∧ ¬ Meets value ptol p
    | some (.stonewall p q) => fd.config = b.min ∧ f b.min = .error (.stonewall p q)
    | some (.insufficient p q) => fd.config = b.min ∧ f b.min = .error (.insufficient p q)
    | _ => False := by
  have h0 := C54_no_target tol n root b hb f
  unfold findRecirc at h h0
  cases hm : recircMin tol n b f with
  | error e =>
    rw [hm] at h h0
    cases e with
    | stonewall p q => cases h; exact h0 _ rfl
    | insufficient p q => cases h; exact h0 _ rfl
    | _ => cases h
  | ok lo =>
    rw [hm] at h
    obtain ⟨l1, l2, l3, -⟩ := C54_min tol n b hb f lo hm
    obtain ⟨pLo, hpLo⟩ := l3
    simp only at h
    unfold recircTarget at h
    cases hx : recircMax tol n b f with
    | error e => rw [hx] at h; cases h
    | ok hi =>
      obtain ⟨g1, g2, ⟨pHi, hpHi⟩, -⟩ := C54_max tol n b hb f hi hx
      have hle := C54_min_le_max tol n b hb f lo hi hm hx
      rw [hx, hpLo] at h
      simp only [Bind.bind, Except.bind, Pure.pure, Except.pure, Bool.and_eq_true, Bool.not_eq_true',
        decide_eq_true_eq, hpHi] at h
      split at h
      · rename_i hc
        cases h
        refine ⟨l1, l2, rfl, rfl, hpLo, hc.2, ?_⟩
        intro hmm
        have := (close_iff value ptol pLo).2 hmm
        rw [hc.1] at this
        cases this
      · split at h
        · rename_i hc
          cases h
          exact ⟨l1, l2, pLo, hpLo, Or.inl ((close_iff _ _ _).1 hc)⟩
        · split at h
          · rename_i hc
            cases h
            exact ⟨g1, g2, pHi, hpHi, Or.inl ((close_iff _ _ _).1 hc)⟩
          · split at h
            · rename_i hc
              cases h
              refine ⟨g1, g2, rfl, rfl, hpHi, hc.2, ?_⟩
              intro hmm
              have := (close_iff value ptol pHi).2 hmm
              rw [hc.1] at this
              cases this
            · cases hroot : root ⟨lo, hi⟩ (fun x => (f x).map (· - value)) with
              | error e => rw [hroot] at h; cases h
              | ok x =>
                rw [hroot] at h
                cases h
                obtain ⟨r1, r2, y, hy, hye⟩ := hr _ _ _ hroot
                simp only at r1 r2
                cases hfx : f x with
                | error e => rw [hfx] at hy; cases hy
                | ok p =>
                  rw [hfx] at hy
                  cases hy
                  refine ⟨by simp only; linarith, by simp only; linarith, ?_⟩
                  simp only
                  exact ⟨p, rfl, Or.inr hye⟩

/-- **Failures are genuine.** When more recirculation takes the simulation from surge through capacity to stonewall and
never raises the outlet pressure, then after a failure no rate within capacity has an outlet pressure within the
tolerance of the target, except possibly one nearer to the end of the capacity than the resolution of the search. -/
theorem C54_genuine (tol : ℚ) (n : Nat) (root : RootFinder) (ε : ℚ) (hr : RootWithin root ε) (b : Boundary)
    (hb : b.min ≤ b.max) (value ptol : ℚ) (f : Sim) (hf : Phased f b)
    (hmono : ∀ x y p q, x ≤ y → f x = .ok p → f y = .ok q → q ≤ p) (fd : Finding)
    (h : findRecirc tol n root b (some (value, ptol)) f = .ok fd) (hfail : fd.failure ≠ none)
    (y p : ℚ) (h1 : b.min ≤ y) (h2 : y ≤ b.max) (hy : f y = .ok p) :
    ¬ Meets value ptol p ∨
    (∃ lo, lo < y ∧ y < fd.config ∧ Close tol n (b.max - b.min) lo fd.config) ∨
    (∃ hi, fd.config < y ∧ y < hi ∧ Close tol n (b.max - b.min) fd.config hi) := by
  obtain ⟨c1, c2, c3⟩ := C54_target tol n root ε hr b hb value ptol f fd h
  cases hff : fd.failure with
  | none => exact absurd hff hfail
  | some fl =>
    rw [hff] at c3
    have hstone : ∀ e i, f b.min = .error e → phase (.error e : Except PErr ℚ) = some i → i = 2 → False := by
      intro e i he hi h2'
      obtain ⟨i', j, hi', hj, hij⟩ := hf b.min y (le_refl _) h1 h2
      rw [he, hi] at hi'
      rw [works_phase f y ⟨p, hy⟩] at hj
      cases hi'
      cases hj
      omega
    cases fl with
    | stonewall u v => exact absurd (hstone _ 2 c3.2 rfl rfl) id
    | insufficient u v => exact absurd (hstone _ 2 c3.2 rfl rfl) id
    | surge u v => exact absurd c3 id
    | thermo => exact absurd c3 id
    | unreachable u t above =>
      cases above with
      | false =>
        obtain ⟨-, k1, k2, k3, k4⟩ := c3
        by_cases hc : fd.config ≤ y
        · left
          have := hmono _ _ _ _ hc k2 hy
          unfold Meets at k4 ⊢
          rw [abs_of_neg (by linarith)] at k4 ⊢
          linarith
        · push Not at hc
          rcases C54_smallest tol n b hb f hf _ k1 with e | ⟨lo, m1, m2, m3, m4, m5⟩
          · rw [e] at hc; linarith
          · exact Or.inr (Or.inl ⟨lo, m5 y h1 h2 ⟨p, hy⟩, hc, m3⟩)
      | true =>
        obtain ⟨-, k1, k2, k3, k4⟩ := c3
        by_cases hc : y ≤ fd.config
        · left
          have := hmono _ _ _ _ hc hy k2
          unfold Meets at k4 ⊢
          rw [abs_of_pos (by linarith)] at k4 ⊢
          linarith
        · push Not at hc
          rcases C54_largest tol n b hb f hf _ k1 with e | ⟨hi, m1, m2, m3, m4, m5⟩
          · rw [e] at hc; linarith
          · exact Or.inr (Or.inr ⟨hi, hc, m5 y h1 h2 ⟨p, hy⟩, m3⟩)

/-- A root finder that, like scipy's, finds a root of a function that is defined on the bracket and changes sign. -/
def FindsSignChange (root : RootFinder) : Prop :=
  ∀ b g, b.min ≤ b.max → (∀ x, b.min ≤ x → x ≤ b.max → ∃ y, g x = .ok y) →
    (∃ u v, g b.min = .ok u ∧ g b.max = .ok v ∧ u * v ≤ 0) → ∃ x, root b g = .ok x

/-- **No exception.** When the simulation is surge, capacity, stonewall in this order, the rates within capacity are
not fewer than the search resolves, and the largest rate does not run into insufficient inlet pressure, the finder
answers: in particular the root finder is only called with a bracket on which the simulation succeeds and at whose
ends the pressure is above and below the target. -/
theorem C54_answers (tol : ℚ) (ht : 0 ≤ tol) (n : Nat) (root : RootFinder) (hroot : FindsSignChange root)
    (b : Boundary) (target : Option (ℚ × ℚ)) (f : Sim) (hf : Phased f b) (u v : ℚ) (hw : Window tol n f b u v)
    (hmax : ∀ p q, f b.max ≠ .error (.insufficient p q)) :
    ∃ fd, findRecirc tol n root b target f = .ok fd := by
  obtain ⟨h1, h2, h3⟩ := hw.inside
  have hb : b.min ≤ b.max := by linarith
  have hmin : ∃ lo, recircMin tol n b f = .ok lo := by
    unfold recircMin
    obtain ⟨i, j, hi, hj, hij⟩ := hf b.min u (le_refl _) h1 (by linarith)
    rw [works_phase f u hw.works.1] at hj
    cases hj
    cases hfb : f b.min with
    | ok p => exact ⟨_, rfl⟩
    | error e =>
      rw [hfb] at hi
      cases e with
      | surge p q => exact search_found tol ht n b f hf u v hw true
      | stonewall p q => cases hi; omega
      | insufficient p q => cases hi; omega
      | _ => cases hi
  have hmx : ∃ hi, recircMax tol n b f = .ok hi := by
    unfold recircMax
    obtain ⟨i, j, hi, hj, hij⟩ := hf v b.max (by linarith) h3 (le_refl _)
    rw [works_phase f v hw.works.2] at hi
    cases hi
    cases hfb : f b.max with
    | ok p => exact ⟨_, rfl⟩
    | error e =>
      rw [hfb] at hj
      cases e with
      | stonewall p q => exact search_found tol ht n b f hf u v hw false
      | surge p q => cases hj; omega
      | insufficient p q => exact absurd hfb (hmax p q)
      | _ => cases hj
  obtain ⟨lo, hlo⟩ := hmin
  obtain ⟨hi, hhi⟩ := hmx
  obtain ⟨l1, l2, ⟨pLo, hpLo⟩, -⟩ := C54_min tol n b hb f lo hlo
  obtain ⟨g1, g2, ⟨pHi, hpHi⟩, -⟩ := C54_max tol n b hb f hi hhi
  have hle := C54_min_le_max tol n b hb f lo hi hlo hhi
  unfold findRecirc
  rw [hlo]
  cases target with
  | none => exact ⟨_, rfl⟩
  | some t =>
    obtain ⟨value, ptol⟩ := t
    simp only
    unfold recircTarget
    rw [hhi, hpLo]
    simp only [Bind.bind, Except.bind, Pure.pure, Except.pure, Bool.and_eq_true, Bool.not_eq_true',
        decide_eq_true_eq, hpHi]
    split
    · exact ⟨_, rfl⟩
    · rename_i c1
      split
      · exact ⟨_, rfl⟩
      · rename_i c2
        split
        · exact ⟨_, rfl⟩
        · rename_i c3
          split
          · exact ⟨_, rfl⟩
          · rename_i c4
            have d1 : value ≤ pLo := by
              by_contra hc
              push Not at hc
              exact c1 ⟨by simpa using c2, hc⟩
            have d2 : pHi ≤ value := by
              by_contra hc
              push Not at hc
              exact c4 ⟨by simpa using c3, hc⟩
            obtain ⟨x, hx⟩ := hroot ⟨lo, hi⟩ (fun x => (f x).map (· - value)) hle (by
              intro x x1 x2
              simp only at x1 x2
              obtain ⟨i, j, ha, hj, hij⟩ := hf lo x l1 x1 (by linarith)
              obtain ⟨i', j', ha', hj', hij'⟩ := hf x hi (by linarith) x2 g2
              rw [works_phase f lo ⟨pLo, hpLo⟩] at ha
              rw [works_phase f hi ⟨pHi, hpHi⟩] at hj'
              rw [hj] at ha'
              cases ha
              cases hj'
              cases ha'
              have : j = 1 := by omega
              subst this
              obtain ⟨y, hy⟩ := phase_works f x hj
              exact ⟨y - value, by rw [hy]; rfl⟩)
              ⟨pLo - value, pHi - value, by simp only [hpLo]; rfl, by simp only [hpHi]; rfl,
                mul_nonpos_of_nonneg_of_nonpos (by linarith) (by linarith)⟩
            rw [hx]
            exact ⟨_, rfl⟩

/-! ## Findings -/

/-- **Finding.** The smallest rate already gives the target pressure, but the rates within capacity are fewer than the
search for the largest one resolves: the finder raises DidNotConvergeError instead of answering. -/
theorem C54_needless_search (root : RootFinder) :
    findRecirc (1 / 100) 20 root ⟨0, 100⟩ (some (50, 1)) (fun x => if x ≤ 0 then .ok 50 else .error (.stonewall x 0))
      = .error .notConverged ∧
    (fun x : ℚ => (if x ≤ 0 then .ok 50 else .error (.stonewall x 0) : Except PErr ℚ)) 0 = .ok 50 := by
  constructor
  · unfold findRecirc
    have h : recircMin (1 / 100) 20 ⟨0, 100⟩ (fun x => if x ≤ 0 then .ok 50 else .error (.stonewall x 0)) = .ok 0 := by
      decide +kernel
    have h' : recircMax (1 / 100) 20 ⟨0, 100⟩ (fun x => if x ≤ 0 then .ok 50 else .error (.stonewall x 0)) =
        .error .notConverged := by
      decide +kernel
    rw [h]
    simp only
    unfold recircTarget
    rw [h']
    rfl
  · rfl

/-- **Finding.** Insufficient inlet pressure at the smallest rate is a reported failure, at the largest rate (with a
target) it escapes as an exception. -/
theorem C54_insufficient_at_max (tol : ℚ) (n : Nat) (root : RootFinder) (b : Boundary) (value ptol : ℚ) (f : Sim)
    (p u v : ℚ) (h1 : f b.min = .ok p) (h2 : f b.max = .error (.insufficient u v)) :
    findRecirc tol n root b (some (value, ptol)) f = .error (.insufficient u v) := by
  unfold findRecirc recircMin
  rw [h1]
  simp only
  unfold recircTarget recircMax
  rw [h2]
  rfl

/-! ## Examples -/

/-- Surge below 10, stonewall above 30, outlet pressure falling from 70 to 50 in between. -/
def curve (x : ℚ) : Except PErr ℚ :=
  if x < 10 then .error (.surge x 10) else if 30 < x then .error (.stonewall x 30) else .ok (80 - x)

/-- A root finder that bisects. -/
def midpoint : RootFinder := fun b g =>
  (bisectLoopE 0 (fun x => (g x).map fun y => ⟨decide (0 < y), true⟩) 12 ⟨b.min, b.max, none, []⟩).bind
    fun s => match s.last with
      | none => .error .value
      | some x => .ok x

example : findRecirc (1 / 100) 20 midpoint ⟨0, 100⟩ none curve = .ok ⟨2575 / 256, none⟩ := by decide +kernel

example : findRecirc (1 / 100) 20 midpoint ⟨0, 100⟩ (some (60, 1)) curve ≠
    findRecirc (1 / 100) 20 midpoint ⟨0, 100⟩ none curve := by decide +kernel

example : (match findRecirc (1 / 100) 20 midpoint ⟨0, 100⟩ (some (60, 1)) curve with
    | .ok ⟨x, none⟩ => decide (|x - 20| < 1 / 100)
    | _ => false) = true := by decide +kernel

example : (match findRecirc (1 / 100) 20 midpoint ⟨0, 100⟩ (some (90, 1)) curve with
    | .ok ⟨x, some (.unreachable p t false)⟩ => decide (t = 90 ∧ x = 2575 / 256 ∧ p = 80 - x)
    | _ => false) = true := by decide +kernel

example : (match findRecirc (1 / 100) 20 midpoint ⟨0, 100⟩ (some (20, 1)) curve with
    | .ok ⟨x, some (.unreachable p t true)⟩ => decide (t = 20 ∧ x ≤ 30 ∧ 29 < x ∧ p = 80 - x)
    | _ => false) = true := by decide +kernel

example : findRecirc (1 / 100) 20 midpoint ⟨40, 100⟩ none curve = .ok ⟨40, some (.stonewall 40 30)⟩ := by
  decide +kernel

theorem curve_phased : Phased curve ⟨0, 100⟩ := by
  intro x y _ h _
  unfold curve
  by_cases h1 : x < 10 <;> by_cases h2 : 30 < x <;> by_cases h3 : y < 10 <;> by_cases h4 : 30 < y <;>
    first
      | (exfalso; linarith)
      | simp [h1, h2, h3, h4, phase]

theorem curve_window : Window (1 / 100) 20 curve ⟨0, 100⟩ 10 30 := by
  refine ⟨by norm_num, ⟨⟨70, ?_⟩, ⟨50, ?_⟩⟩, ?_, by norm_num⟩
  · unfold curve; norm_num
  · unfold curve; norm_num
  · simp only [abs_zero, abs_of_pos (show (0 : ℚ) < 100 by norm_num)]
    norm_num

/-- The hypotheses of `C54_answers` are met by the example. -/
example (root : RootFinder) (hroot : FindsSignChange root) (target : Option (ℚ × ℚ)) :
    ∃ fd, findRecirc (1 / 100) 20 root ⟨0, 100⟩ target curve = .ok fd :=
  C54_answers _ (by norm_num) _ root hroot _ target curve curve_phased 10 30 curve_window
    (by intro p q; unfold curve; norm_num; intro h; cases h)

end Verif.C54
