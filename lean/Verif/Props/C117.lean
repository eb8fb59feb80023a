import Verif.Model.Facility
import Mathlib.Data.List.Forall2
import Mathlib.Tactic.Linarith

/-!
# C117 Facility models that remember their inputs
-/

namespace Verif.C117
open Verif.Rates Verif.Facility

variable {F R T : Type}

/-! ## What calculations depend on -/

/-- The part of the state that a calculation may depend on. -/
def Same (s s' : State F) : Prop := s.fluids = s'.fluids

theorem set_same (m : Inner F R) {s s' : State F} (h : Same s s') (x : Setting F) : m.set s x = m.set s' x := by
  unfold Inner.set
  cases m with
  | train t => rfl
  | sampled c =>
    have h' : s.fluids = s'.fluids := h
    rw [h']

theorem set_many (m : Inner F R) {s s' : State F} {x : Setting F} {fl : List (Option F)} (hx : x.fluid = .many fl)
    (hs : s.fluids = some fl) (h : m.set s x = .ok s') : s'.fluids = some fl := by
  unfold Inner.set at h
  cases m with
  | train t =>
    dsimp only at h
    split at h
    · cases h
    split at h
    · cases h
    split at h
    · cases h
    split at h
    · cases h
    have h := Except.ok.inj h
    subst h
    rw [hx]; rfl
  | sampled c =>
    dsimp only at h
    split at h
    · cases h
    split at h
    · cases h
    have h := Except.ok.inj h
    subst h
    exact hs

theorem remaining_same (w : Wrapper T) (m : Inner F R) (p q : ℚ) {s s' : State F} (h : Same s s') (r : ℚ) :
    (w.remaining m p q s r).1 = (w.remaining m p q s' r).1 ∧
      (w.remaining m p q s r).2.fluids = s.fluids ∧ (w.remaining m p q s' r).2.fluids = s'.fluids := by
  have h' : s.fluids = s'.fluids := h
  unfold Wrapper.remaining
  cases hf : s.fluids with
  | none =>
    rw [← h', hf]
    exact ⟨rfl, rfl, h'.symm.trans hf⟩
  | some fl =>
    rw [← h', hf]
    dsimp only
    rw [← set_same m h]
    cases hs : m.set s ⟨some [[some r]], .many fl, some [p], some [q], none⟩ with
    | error e => exact ⟨rfl, hf, by rw [← h', hf]⟩
    | ok s1 =>
      have hs1 := set_many m rfl hf hs
      dsimp only
      cases he : m.evaluate s1 with
      | error e => exact ⟨rfl, hs1, hs1⟩
      | ok x => exact ⟨rfl, hs1, hs1⟩

theorem search_same (next : List (ℚ × Except FErr Fl) → Ask) (w : Wrapper T) (m : Inner F R) (p q : ℚ) :
    ∀ (n : ℕ) (seen : List (ℚ × Except FErr Fl)) {s s' : State F}, Same s s' →
      (search next (w.remaining m p q) n seen s).1 = (search next (w.remaining m p q) n seen s').1 ∧
      (search next (w.remaining m p q) n seen s).2.fluids = s.fluids
  | 0, _, _, _, _ => ⟨rfl, rfl⟩
  | n + 1, seen, s, s', h => by
    unfold search
    cases next seen with
    | root x => exact ⟨rfl, rfl⟩
    | fail e => exact ⟨rfl, rfl⟩
    | probe x =>
      dsimp only
      obtain ⟨a, b, c⟩ := remaining_same w m p q h x
      have h' : s.fluids = s'.fluids := h
      have h2 : Same (w.remaining m p q s x).2 (w.remaining m p q s' x).2 := by
        unfold Same; rw [b, c]; exact h'
      rw [← a]
      obtain ⟨d, e⟩ := search_same next w m p q n (seen ++ [(x, (w.remaining m p q s x).1)]) h2
      exact ⟨d, e.trans b⟩

theorem round_same (w : Wrapper T) (m : Inner F R) {s s' : State F} (h : Same s s') (r v : Fl) (p q : ℚ) :
    (w.limitOne m s r v p q).1 = (w.limitOne m s' r v p q).1 ∧ (w.limitOne m s r v p q).2.fluids = s.fluids := by
  unfold Wrapper.limitOne
  cases v with
  | none => exact ⟨rfl, rfl⟩
  | some x =>
    dsimp only
    by_cases hx : w.maxPower < x
    · rw [if_pos hx, if_pos hx]
      obtain ⟨a, b⟩ := search_same (w.finder.next 0 r) w m p q w.finder.limit [] h
      revert a b
      generalize search (w.finder.next 0 r) (w.remaining m p q) w.finder.limit [] s = A
      generalize search (w.finder.next 0 r) (w.remaining m p q) w.finder.limit [] s' = B
      obtain ⟨a1, a2⟩ := A
      obtain ⟨b1, b2⟩ := B
      intro a b
      have a : a1 = b1 := a
      subst a
      cases a1 with
      | ok y => exact ⟨rfl, b⟩
      | error e => exact ⟨rfl, b⟩
    · rw [if_neg hx, if_neg hx]
      exact ⟨rfl, rfl⟩

theorem limit_same (w : Wrapper T) (m : Inner F R) : ∀ (rs vs : List Fl) (ps qs : List ℚ) {s s' : State F}, Same s s' →
    (w.limitRates m s rs vs ps qs).1 = (w.limitRates m s' rs vs ps qs).1 ∧
      (w.limitRates m s rs vs ps qs).2.fluids = s.fluids
  | r :: rs, v :: vs, p :: ps, q :: qs, s, s', h => by
    rw [Wrapper.limitRates, Wrapper.limitRates]
    obtain ⟨a, b⟩ := round_same w m h r v p q
    obtain ⟨-, c⟩ := round_same w m (s := s') (s' := s') rfl r v p q
    revert a b c
    generalize w.limitOne m s r v p q = A
    generalize w.limitOne m s' r v p q = B
    obtain ⟨a1, a2⟩ := A
    obtain ⟨b1, b2⟩ := B
    intro a b c
    have a : a1 = b1 := a
    have b : a2.fluids = s.fluids := b
    have c : b2.fluids = s'.fluids := c
    have h' : s.fluids = s'.fluids := h
    subst a
    cases a1 with
    | error e => exact ⟨rfl, b⟩
    | ok y =>
      have h2 : Same a2 b2 := by unfold Same; rw [b, c]; exact h'
      obtain ⟨d, e⟩ := limit_same w m rs vs ps qs h2
      dsimp only
      revert d e
      generalize w.limitRates m a2 rs vs ps qs = A
      generalize w.limitRates m b2 rs vs ps qs = B
      obtain ⟨x1, x2⟩ := A
      obtain ⟨y1, y2⟩ := B
      intro d e
      have d : x1 = y1 := d
      subst d
      cases x1 with
      | ok l => exact ⟨rfl, e.trans b⟩
      | error z => exact ⟨rfl, e.trans b⟩
  | [], _, _, _, _, _, _ => by simp [Wrapper.limitRates]
  | _ :: _, [], _, _, _, _, _ => by simp [Wrapper.limitRates]
  | _ :: _, _ :: _, [], _, _, _, _ => by simp [Wrapper.limitRates]
  | _ :: _, _ :: _, _ :: _, [], _, _, _ => by simp [Wrapper.limitRates]

theorem given_same {s s' : State F} (h : Same s s') (f : Option F) : Same (State.given s f) (State.given s' f) := by
  cases f with
  | none => exact h
  | some f => rfl

theorem given_some (s s' : State F) (f : F) : Same (State.given s (some f)) (State.given s' (some f)) := rfl

theorem inner_max_same (m : Inner F R) {s s' : State F} (h : Same s s') (ps pd : List ℚ) :
    m.maxRates s ps pd = m.maxRates s' ps pd := by
  have h' : s.fluids = s'.fluids := h
  unfold Inner.maxRates
  rw [h']

theorem max_same (w : Wrapper T) (m : Inner F R) {s s' : State F} (f : Option F) (h : Same (State.given s f) (State.given s' f))
    (ps pd : List ℚ) :
    (w.maxRates m s ps pd f).1 = (w.maxRates m s' ps pd f).1 ∧ (w.maxRates m s ps pd f).2.fluids = (State.given s f).fluids := by
  have e : ∀ t : State F, w.maxRates m t ps pd f =
      match m.maxRates (t.given f) ps pd with
      | .error e => (.error e, t.given f)
      | .ok rates =>
        match (t.given f).fluids with
        | none => (.error .missing, t.given f)
        | some fl =>
          match m.set (t.given f) ⟨some (rates.map fun r => [r]), .many fl, some ps, some pd, none⟩ with
          | .error e => (.error e, t.given f)
          | .ok s2 =>
            match m.evaluate s2 with
            | .error e => (.error e, s2)
            | .ok x =>
              match x.power with
              | none => (.ok rates, s2)
              | some powers => w.limitRates m s2 rates powers ps pd := by
    intro t
    cases f <;> rfl
  rw [e s, e s', ← inner_max_same m h]
  have h' : (State.given s f).fluids = (State.given s' f).fluids := h
  cases m.maxRates (State.given s f) ps pd with
  | error x => exact ⟨rfl, rfl⟩
  | ok rates =>
    rw [← h']
    dsimp only
    cases hf : (State.given s f).fluids with
    | none => exact ⟨rfl, hf⟩
    | some fl =>
      dsimp only
      rw [← set_same m h]
      cases hs : m.set (State.given s f) ⟨some (rates.map fun r => [r]), .many fl, some ps, some pd, none⟩ with
      | error x => exact ⟨rfl, hf⟩
      | ok s2 =>
        have h2 := set_many m rfl hf hs
        dsimp only
        cases m.evaluate s2 with
        | error x => exact ⟨rfl, h2⟩
        | ok x =>
          dsimp only
          cases x.power with
          | none => exact ⟨rfl, h2⟩
          | some powers =>
            exact ⟨rfl, ((limit_same w m rates powers ps pd (s := s2) (s' := s2) rfl).2).trans h2⟩

/-- What a component may remember: without a fluid model, or with a sampled compressor, no fluid model. -/
def Allowed (c : Component F R T) (s : State F) : Prop :=
  s.fluids = none ∨ ∃ f, c.fluid = some f ∧ ((∃ t, c.facility = .plain (.train t)) ∨ ∃ w t, c.facility = .turbine w (.train t))

theorem ask_spec (m : Inner F R) (s : State F) (rates : List (List Fl)) (ps pd : List ℚ) (f : Option F) :
    (m.ask s rates ps pd f).1 = (m.ask State.fresh rates ps pd f).1 ∧
      ((m.ask s rates ps pd f).2.fluids = s.fluids ∨ f ≠ none ∧ ∃ t, m = .train t) := by
  unfold Inner.ask
  cases m with
  | train t =>
    dsimp only
    cases f with
    | none => exact ⟨rfl, .inl rfl⟩
    | some f =>
      dsimp only [Option.isNone]
      simp only [Bool.false_eq_true, if_false]
      have : (Inner.train t : Inner F R).set s ⟨some rates, .one (some f), some ps, some pd, none⟩ =
          (Inner.train t : Inner F R).set State.fresh ⟨some rates, .one (some f), some ps, some pd, none⟩ := rfl
      rw [this]
      cases (Inner.train t : Inner F R).set State.fresh ⟨some rates, .one (some f), some ps, some pd, none⟩ with
      | error e => exact ⟨rfl, .inl rfl⟩
      | ok s' => exact ⟨rfl, .inr ⟨by simp, t, rfl⟩⟩
  | sampled c =>
    dsimp only
    exact ⟨rfl, .inl rfl⟩

theorem evaluate_spec (c : Component F R T) (s : State F) (hs : Allowed c s) (rates : List (List Fl)) (ps pd : List ℚ)
    (d : Option (List ℚ)) : (c.evaluate s rates ps pd d).1 = (c.evaluate State.fresh rates ps pd d).1 ∧
      Allowed c (c.evaluate s rates ps pd d).2 := by
  have key : ∀ (m : Inner F R) (s' : State F), s'.fluids = s.fluids ∨ c.fluid ≠ none ∧ (∃ t, m = .train t) →
      (c.facility = .plain m ∨ ∃ w, c.facility = .turbine w m) → Allowed c s' := by
    intro m s' h hc
    rcases h with h | ⟨hf, t, rfl⟩
    · unfold Allowed at hs ⊢
      rw [h]; exact hs
    · obtain ⟨f, hf⟩ := Option.ne_none_iff_exists'.mp hf
      refine .inr ⟨f, hf, ?_⟩
      rcases hc with hc | ⟨w, hc⟩
      · exact .inl ⟨t, hc⟩
      · exact .inr ⟨w, t, hc⟩
  unfold Component.evaluate
  cases hc : c.facility with
  | pump p =>
    dsimp only
    cases d with
    | none => exact ⟨rfl, hs⟩
    | some d =>
      dsimp only
      cases p.eval rates ps pd d with
      | ok r => exact ⟨rfl, hs⟩
      | error e => exact ⟨rfl, hs⟩
  | plain m =>
    dsimp only
    obtain ⟨a, b⟩ := ask_spec m s rates ps pd c.fluid
    revert a b
    generalize m.ask s rates ps pd c.fluid = A
    generalize m.ask State.fresh rates ps pd c.fluid = B
    obtain ⟨a1, a2⟩ := A
    obtain ⟨b1, b2⟩ := B
    intro a b
    have a : a1 = b1 := a
    subst a
    cases a1 with
    | ok r => exact ⟨rfl, key m a2 b (.inl hc)⟩
    | error e => exact ⟨rfl, key m a2 b (.inl hc)⟩
  | turbine w m =>
    dsimp only
    obtain ⟨a, b⟩ := ask_spec m s rates ps pd c.fluid
    revert a b
    generalize m.ask s rates ps pd c.fluid = A
    generalize m.ask State.fresh rates ps pd c.fluid = B
    obtain ⟨a1, a2⟩ := A
    obtain ⟨b1, b2⟩ := B
    intro a b
    have a : a1 = b1 := a
    subst a
    cases a1 with
    | ok r => exact ⟨rfl, key m a2 b (.inr ⟨w, hc⟩)⟩
    | error e => exact ⟨rfl, key m a2 b (.inr ⟨w, hc⟩)⟩

theorem allowed_given (c : Component F R T) (s : State F) (hs : Allowed c s) :
    Same (State.given s c.fluid) (State.given State.fresh c.fluid) := by
  cases hf : c.fluid with
  | some f => rfl
  | none =>
    rcases hs with h | ⟨f, h, -⟩
    · exact h
    · rw [hf] at h; cases h

theorem maxRate_spec (c : Component F R T) (s : State F) (hs : Allowed c s) (ps pd : List ℚ)
    (d : Option (List ℚ)) : (c.maxRate s ps pd d).1 = (c.maxRate State.fresh ps pd d).1 ∧
      Allowed c (c.maxRate s ps pd d).2 := by
  have key : ∀ s' : State F, s'.fluids = (State.given s c.fluid).fluids →
      ((∃ t, c.facility = .plain (.train t)) ∨ ∃ w t, c.facility = .turbine w (.train t)) → Allowed c s' := by
    intro s' h hc
    cases hf : c.fluid with
    | none =>
      rw [hf] at h
      unfold Allowed at hs ⊢
      rw [h]; exact hs
    | some f => exact .inr ⟨f, hf, hc⟩
  unfold Component.maxRate
  cases hc : c.facility with
  | pump p =>
    dsimp only
    cases d with
    | none => exact ⟨rfl, hs⟩
    | some d => exact ⟨rfl, hs⟩
  | plain m =>
    cases m with
    | train t =>
      have h := allowed_given c s hs
      have h' : (State.given s c.fluid).fluids = (State.given State.fresh c.fluid).fluids := h
      dsimp only
      rw [← h']
      exact ⟨rfl, key _ rfl (.inl ⟨t, hc⟩)⟩
    | sampled m => exact ⟨rfl, hs⟩
  | turbine w m =>
    cases m with
    | train t =>
      dsimp only
      obtain ⟨a, b⟩ := max_same w (.train t) c.fluid (allowed_given c s hs) ps pd
      exact ⟨a, key _ b (.inr ⟨w, t, hc⟩)⟩
    | sampled m =>
      dsimp only
      have h0 : s.fluids = none := by
        rcases hs with h | ⟨f, -, ⟨t, h⟩ | ⟨w', t, h⟩⟩
        · exact h
        · rw [hc] at h; cases h
        · rw [hc] at h; cases h
      obtain ⟨a, b⟩ := max_same (s := s) (s' := State.fresh) w (.sampled m) none h0 ps pd
      exact ⟨a, .inl (b.trans h0)⟩

theorem answer_spec (c : Component F R T) (s : State F) (hs : Allowed c s) (x : Enquiry) :
    (c.answer s x).1 = (c.answer State.fresh x).1 ∧ Allowed c (c.answer s x).2 := by
  unfold Component.answer
  cases x with
  | maxRate ps pd d =>
    dsimp only
    obtain ⟨a, b⟩ := maxRate_spec c s hs ps pd d
    revert a b
    generalize c.maxRate s ps pd d = A
    generalize c.maxRate State.fresh ps pd d = B
    obtain ⟨a1, a2⟩ := A
    obtain ⟨b1, b2⟩ := B
    intro a b
    have a : a1 = b1 := a
    subst a
    cases a1 <;> exact ⟨rfl, b⟩
  | evaluate rates ps pd d =>
    dsimp only
    obtain ⟨a, b⟩ := evaluate_spec c s hs rates ps pd d
    revert a b
    generalize c.evaluate s rates ps pd d = A
    generalize c.evaluate State.fresh rates ps pd d = B
    obtain ⟨a1, a2⟩ := A
    obtain ⟨b1, b2⟩ := B
    intro a b
    have a : a1 = b1 := a
    subst a
    cases a1 <;> exact ⟨rfl, b⟩

/-! ## Theorems -/

/-- **C117, enquiries.** Whatever a consumer system asks a component, and in whatever order, each answer is the one a newly
built component would give to that enquiry alone, though the model remembers inputs and fluid models in between. -/
theorem C117_history (c : Component F R T) (xs : List Enquiry) :
    c.answers State.fresh xs = xs.map fun x => (c.answer State.fresh x).1 := by
  have : ∀ (xs : List Enquiry) (s : State F), Allowed c s →
      c.answers s xs = xs.map fun x => (c.answer State.fresh x).1 := by
    intro xs
    induction xs with
    | nil => intro s _; rfl
    | cons x xs ih =>
      intro s hs
      obtain ⟨a, b⟩ := answer_spec c s hs x
      show (c.answer s x).1 :: c.answers (c.answer s x).2 xs = _
      rw [a, ih _ b]
      rfl
  exact this xs _ (.inl rfl)

/-- **C117, applied inputs.** A compressor outside consumer systems gives the result of the inputs applied to it, whatever
it was used for before, and reports the pressures of these inputs as the requested ones. -/
theorem C117_applied (w : Option (Wrapper T)) (m : Inner F R) (s : State F) (b : Bool) (rates : List (List Fl))
    (fluid : FluidArg F) (ps pd ip : Option (List ℚ)) :
    (applied w m s b rates fluid ps pd ip).1 = (applied w m State.fresh b rates fluid ps pd ip).1 ∧
    ∀ a, (applied w m s b rates fluid ps pd ip).1 = .ok a →
      requested (applied w m s b rates fluid ps pd ip).2 = .ok (ps, pd) := by
  have hset : ∀ (x : Setting F) (s' : State F), m.set s x = .ok s' → requested s' = .ok (x.ps, x.pd) := by
    intro x s' h
    unfold Inner.set at h
    cases m with
    | train t =>
      dsimp only at h
      split at h
      · cases h
      split at h
      · cases h
      split at h
      · cases h
      split at h
      · cases h
      have h := Except.ok.inj h
      subst h
      rfl
    | sampled c =>
      dsimp only at h
      split at h
      · cases h
      split at h
      · cases h
      have h := Except.ok.inj h
      subst h
      rfl
  have hind : ∀ x : Setting F, (m.set s x).toOption.map State.inputs = (m.set State.fresh x).toOption.map State.inputs ∧
      (∀ e, m.set s x = .error e ↔ m.set State.fresh x = .error e) := by
    intro x
    unfold Inner.set
    cases m with
    | train t => exact ⟨rfl, fun e => Iff.rfl⟩
    | sampled c =>
      dsimp only
      split
      · exact ⟨rfl, fun e => Iff.rfl⟩
      · split
        · exact ⟨rfl, fun e => Iff.rfl⟩
        · exact ⟨rfl, fun e => ⟨(fun h => by cases h), (fun h => by cases h)⟩⟩
  have heval : ∀ (x : Setting F) (s1 s2 : State F), m.set s x = .ok s1 → m.set State.fresh x = .ok s2 →
      m.evaluate s1 = m.evaluate s2 := by
    intro x s1 s2 h1 h2
    cases m with
    | train t =>
      have : s1 = s2 := by
        have h3 : (Inner.train t : Inner F R).set s x = .ok s2 := h2
        rw [h1] at h3
        exact Except.ok.inj h3
      rw [this]
    | sampled c =>
      have h3 := (hind x).1
      rw [h1, h2] at h3
      have h4 : s1.inputs = s2.inputs := Option.some.inj h3
      unfold Inner.evaluate
      dsimp only
      rw [h4]
  unfold applied
  generalize hx : (if b then (⟨some rates, fluid, ps, pd, some ip⟩ : Setting F)
    else ⟨some rates, .one none, ps, pd, none⟩) = x
  have hps : x.ps = ps ∧ x.pd = pd := by subst hx; cases b <;> exact ⟨rfl, rfl⟩
  cases h1 : m.set s x with
  | error e =>
    rw [((hind x).2 e).mp h1]
    exact ⟨rfl, fun a h => by cases h⟩
  | ok s1 =>
    cases h2 : m.set State.fresh x with
    | error e => rw [((hind x).2 e).mpr h2] at h1; cases h1
    | ok s2 =>
      have hr := hset x s1 h1
      rw [hps.1, hps.2] at hr
      dsimp only
      rw [← heval x s1 s2 h1 h2]
      cases m.evaluate s1 with
      | error e => exact ⟨rfl, fun a h => by cases h⟩
      | ok r =>
        cases w with
        | none => exact ⟨rfl, fun a _ => hr⟩
        | some w => exact ⟨rfl, fun a _ => hr⟩

/-- A root finder ends with a root after asking for values of a function. -/
inductive Finds (next : List (ℚ × Except FErr Fl) → Ask) (f : ℚ → Except FErr Fl) : List (ℚ × Except FErr Fl) → ℚ → Prop
  | root {seen y} : next seen = .root y → Finds next f seen y
  | probe {seen x y} : next seen = .probe x → Finds next f (seen ++ [(x, f x)]) y → Finds next f seen y

/-- The power of a single time step above what the turbine can deliver less the tolerance; zero without a power. -/
def Above (limit : ℚ) (a : Except FErr (Answer R T)) (v : Except FErr Fl) : Prop :=
  match a with
  | .error e => v = .error e
  | .ok x =>
    match x.result.power with
    | some (none :: _) => v = .ok none
    | some (some z :: _) => v = .ok (some (z - (limit - 1 / 1000)))
    | _ => v = .ok (some 0)

theorem search_finds {S : Type} (next : List (ℚ × Except FErr Fl) → Ask) (g : S → ℚ → Except FErr Fl × S)
    (f : ℚ → Except FErr Fl) (I : S → Prop) (hg : ∀ s x, I s → (g s x).1 = f x ∧ I (g s x).2) :
    ∀ (n : ℕ) (seen : List (ℚ × Except FErr Fl)) (s : S) (y : ℚ), I s → (search next g n seen s).1 = .ok y →
      Finds next f seen y
  | 0, _, _, _, _, h => by cases h
  | n + 1, seen, s, y, hI, h => by
    unfold search at h
    cases hn : next seen with
    | root x =>
      rw [hn] at h
      have h := Except.ok.inj h
      subst h
      exact .root hn
    | fail e => rw [hn] at h; cases h
    | probe x =>
      rw [hn] at h
      dsimp only at h
      obtain ⟨a, b⟩ := hg s x hI
      rw [a] at h
      exact .probe hn (search_finds next g f I hg n _ _ y b h)

/-- A compressor by itself. -/
abbrev alone (t : Train F R) (f : F) : Component F R T := ⟨.plain (.train t), some f⟩

/-- The same compressor with a turbine. -/
abbrev driven (w : Wrapper T) (t : Train F R) (f : F) : Component F R T := ⟨.turbine w (.train t), some f⟩

theorem remaining_eq (w : Wrapper T) (t : Train F R) (f : F) (p q : ℚ) (s : State F) (hs : s.fluids = some [some f])
    (r : ℚ) : Above w.maxPower ((alone (T := T) t f).evaluate State.fresh [[some r]] [p] [q] none).1
      (w.remaining (.train t) p q s r).1 := by
  unfold Wrapper.remaining alone Component.evaluate Inner.ask
  rw [hs]
  dsimp only [Option.isNone]
  simp only [Bool.false_eq_true, if_false]
  have : (Inner.train t : Inner F R).set s ⟨some [[some r]], .many [some f], some [p], some [q], none⟩ =
    (Inner.train t : Inner F R).set State.fresh ⟨some [[some r]], .one (some f), some [p], some [q], none⟩ := rfl
  rw [this]
  cases (Inner.train t : Inner F R).set State.fresh ⟨some [[some r]], .one (some f), some [p], some [q], none⟩ with
  | error e => rfl
  | ok s' =>
    dsimp only
    cases (Inner.train t : Inner F R).evaluate s' with
    | error e => rfl
    | ok x =>
      obtain ⟨a, b, c⟩ := x
      cases b with
      | none => rfl
      | some b =>
        cases b with
        | nil => rfl
        | cons v vs => cases v <;> rfl

theorem above_unique {limit : ℚ} {a : Except FErr (Answer R T)} {v v' : Except FErr Fl} (h : Above limit a v)
    (h' : Above limit a v') : v = v' := by
  unfold Above at h h'
  cases a with
  | error e => exact h.trans h'.symm
  | ok x =>
    obtain ⟨⟨a, b, c⟩, d⟩ := x
    cases b with
    | none => exact h.trans h'.symm
    | some b =>
      cases b with
      | nil => exact h.trans h'.symm
      | cons v vs => cases v <;> exact h.trans h'.symm

/-- What is said of one time step: the rate `c` and power `v` of the compressor alone, and the rate `l` with the turbine. -/
def Limited (w : Wrapper T) (t : Train F R) (f : F) (p q : ℚ) (c v l : Fl) : Prop :=
  ((∀ x, v = some x → x ≤ w.maxPower) ∧ l = c) ∨
  ∃ x y load, v = some x ∧ w.maxPower < x ∧ l = some y ∧
    (∀ r, Above w.maxPower ((alone (T := T) t f).evaluate State.fresh [[some r]] [p] [q] none).1 (load r)) ∧
    Finds (w.finder.next 0 c) load [] y

theorem one_limited (w : Wrapper T) (t : Train F R) (f : F) (s : State F) (hs : s.fluids = some [some f]) (c v l : Fl)
    (p q : ℚ) (h : (w.limitOne (.train t) s c v p q).1 = .ok l) : Limited w t f p q c v l := by
  unfold Wrapper.limitOne at h
  cases v with
  | none =>
    have h := Except.ok.inj h
    exact .inl ⟨(fun x hx => by cases hx), h.symm⟩
  | some x =>
    dsimp only at h
    by_cases hx : w.maxPower < x
    · rw [if_pos hx] at h
      have H := search_finds (w.finder.next 0 c) (w.remaining (.train t) p q)
        (fun r => (w.remaining (.train t) p q s r).1) (fun s' => s'.fluids = some [some f])
        (fun s' r hs' => by
          obtain ⟨a, b, -⟩ := remaining_same w (.train t) p q (s := s') (s' := s) (hs'.trans hs.symm) r
          exact ⟨a, b.trans hs'⟩) w.finder.limit [] s
      revert h H
      generalize search (w.finder.next 0 c) (w.remaining (.train t) p q) w.finder.limit [] s = A
      obtain ⟨a1, a2⟩ := A
      intro h H
      cases a1 with
      | error e => cases h
      | ok y =>
        have h := Except.ok.inj h
        exact .inr ⟨x, y, _, rfl, hx, h.symm, fun r => remaining_eq w t f p q s hs r, H y hs rfl⟩
    · rw [if_neg hx] at h
      have h := Except.ok.inj h
      exact .inl ⟨(fun z hz => by cases hz; exact not_lt.mp hx), h.symm⟩

theorem all_limited (w : Wrapper T) (t : Train F R) (f : F) : ∀ (cs vs : List Fl) (ps qs : List ℚ) (s : State F)
    (l : List Fl), s.fluids = some [some f] → (w.limitRates (.train t) s cs vs ps qs).1 = .ok l →
    l.length = cs.length ∧ ∀ (i : ℕ) (c v : Fl) (p q : ℚ), cs[i]? = some c → vs[i]? = some v → ps[i]? = some p →
      qs[i]? = some q → ∃ x, l[i]? = some x ∧ Limited w t f p q c v x
  | c :: cs, v :: vs, p :: ps, q :: qs, s, l, hs, h => by
    rw [Wrapper.limitRates] at h
    have ho := one_limited w t f s hs c v
    obtain ⟨-, hk⟩ := round_same w (.train t) (s := s) (s' := s) rfl c v p q
    revert h hk
    generalize hA : w.limitOne (.train t) s c v p q = A
    obtain ⟨a1, a2⟩ := A
    intro h hk
    have hk : a2.fluids = s.fluids := hk
    cases a1 with
    | error e => cases h
    | ok y =>
      dsimp only at h
      have ih := all_limited w t f cs vs ps qs a2
      revert h ih
      generalize w.limitRates (.train t) a2 cs vs ps qs = B
      obtain ⟨b1, b2⟩ := B
      intro h ih
      cases b1 with
      | error e => cases h
      | ok l' =>
        have h := Except.ok.inj h
        subst h
        obtain ⟨h1, h2⟩ := ih l' (hk.trans hs) rfl
        refine ⟨by simp [h1], ?_⟩
        intro i c' v' p' q' hc hv hp hq
        cases i with
        | zero =>
          cases hc; cases hv; cases hp; cases hq
          exact ⟨y, rfl, ho y p q (by rw [hA])⟩
        | succ i => exact h2 i c' v' p' q' hc hv hp hq
  | [], vs, ps, qs, s, l, _, h => by
    simp [Wrapper.limitRates] at h
    subst h
    exact ⟨rfl, fun i c v p q hc => by simp at hc⟩
  | _ :: _, [], ps, qs, s, l, _, h => by
    simp [Wrapper.limitRates] at h
    subst h
    exact ⟨rfl, fun i c v p q _ hv => by simp at hv⟩
  | _ :: _, _ :: _, [], qs, s, l, _, h => by
    simp [Wrapper.limitRates] at h
    subst h
    exact ⟨rfl, fun i c v p q _ _ hp => by simp at hp⟩
  | _ :: _, _ :: _, _ :: _, [], s, l, _, h => by
    simp [Wrapper.limitRates] at h
    subst h
    exact ⟨rfl, fun i c v p q _ _ _ hq => by simp at hq⟩

/-- **C117, capacity.** The maximum rates of a train with a turbine are those of the train alone, except in the time steps
in which the train alone takes more power at that rate than the turbine delivers: there it is what the root finder, started
with zero and that rate, makes of the power of this time step alone. -/
theorem C117_capacity (w : Wrapper T) (t : Train F R) (f : F) (ps pd : List ℚ) (l : List Fl)
    (h : ((driven w t f).maxRate State.fresh ps pd none).1 = .ok l) :
    ∃ cs a vs, ((alone (T := T) t f).maxRate State.fresh ps pd none).1 = .ok cs ∧
      ((alone (T := T) t f).evaluate State.fresh (cs.map fun c => [c]) ps pd none).1 = .ok a ∧
      a.result.power = some vs ∧ l.length = cs.length ∧
      ∀ (i : ℕ) (c v : Fl) (p q : ℚ), cs[i]? = some c → vs[i]? = some v → ps[i]? = some p → pd[i]? = some q →
        ∃ x, l[i]? = some x ∧ Limited w t f p q c v x := by
  unfold driven Component.maxRate Wrapper.maxRates at h
  unfold alone Component.maxRate Component.evaluate Inner.ask
  dsimp only [Option.isNone] at h ⊢
  simp only [Bool.false_eq_true, if_false]
  have hm : (Inner.train t : Inner F R).maxRates (State.fresh.given (some f)) ps pd =
    t.maxRates (State.fresh.given (some f)).fluids ps pd := rfl
  rw [hm] at h
  cases hcs : t.maxRates (State.fresh.given (some f)).fluids ps pd with
  | error e => rw [hcs] at h; cases h
  | ok cs =>
    rw [hcs] at h
    have hfl : (State.fresh.given (some f)).fluids = some [some f] := rfl
    rw [hfl] at h
    dsimp only at h
    have hset : (Inner.train t : Inner F R).set (State.fresh.given (some f))
        ⟨some (cs.map fun r => [r]), .many [some f], some ps, some pd, none⟩ =
      (Inner.train t : Inner F R).set State.fresh ⟨some (cs.map fun r => [r]), .one (some f), some ps, some pd, none⟩ :=
      rfl
    rw [hset] at h
    refine ⟨cs, ?_⟩
    cases hs : (Inner.train t : Inner F R).set State.fresh
        ⟨some (cs.map fun r => [r]), .one (some f), some ps, some pd, none⟩ with
    | error e => rw [hs] at h; cases h
    | ok s2 =>
      rw [hs] at h
      have hs2 := set_many (.train t) (s := State.fresh.given (some f)) (fl := [some f]) rfl rfl (hset.trans hs)
      dsimp only at h ⊢
      cases he : (Inner.train t : Inner F R).evaluate s2 with
      | error e => rw [he] at h; cases h
      | ok x =>
        rw [he] at h
        dsimp only at h ⊢
        cases hp : x.power with
        | none =>
          exfalso
          unfold Inner.evaluate Train.evaluate at he
          dsimp only at he
          split at he
          · split at he
            · cases he
            · split at he
              · split at he
                · cases he
                · have he := Except.ok.inj he
                  subst he
                  cases hp
              · have he := Except.ok.inj he
                subst he
                cases hp
          · cases he
        | some vs =>
          rw [hp] at h
          obtain ⟨a, b⟩ := all_limited w t f cs vs ps pd s2 l hs2 h
          exact ⟨⟨x, none⟩, vs, rfl, rfl, hp, a, b⟩

/-- **C117, within the turbine.** If the root finder ends within the tolerance, the power of the train at the rate found is
at most what the turbine delivers. -/
theorem C117_within (w : Wrapper T) (t : Train F R) (f : F) (p q : ℚ) (c v : Fl) (y : ℚ)
    (hfind : ∀ g z, Finds (w.finder.next 0 c) g [] z → ∃ d, g z = .ok (some d) ∧ d ≤ 1 / 1000)
    (hv : ∃ x, v = some x ∧ w.maxPower < x) (h : Limited w t f p q c v (some y)) :
    ∃ a, ((alone (T := T) t f).evaluate State.fresh [[some y]] [p] [q] none).1 = .ok a ∧
      ∀ z zs, a.result.power = some (z :: zs) → ∃ x, z = some x ∧ x ≤ w.maxPower := by
  rcases h with ⟨hle, -⟩ | ⟨x, y', load, -, -, hy, hload, hF⟩
  · obtain ⟨x, hx, hlt⟩ := hv
    exact absurd (hle x hx) (not_le.mpr hlt)
  · cases hy
    obtain ⟨d, hd, hle⟩ := hfind load y hF
    have H := hload y
    rw [hd] at H
    cases ha : ((alone (T := T) t f).evaluate State.fresh [[some y]] [p] [q] none).1 with
    | error e => rw [ha] at H; cases H
    | ok a =>
      refine ⟨a, rfl, ?_⟩
      intro z zs hz
      rw [ha] at H
      unfold Above at H
      dsimp only at H
      rw [hz] at H
      cases z with
      | none => cases H
      | some z =>
        have H := Option.some.inj (Except.ok.inj H)
        exact ⟨z, rfl, by linarith⟩

/-- What is said of the maximum rate of a train for one pair of pressures. -/
def Capacity (t : Train F R) (f : F) (p : ℚ) (q : Option ℚ) (x : Fl) : Prop :=
  match q with
  | none => x = none
  | some q =>
    ((p ≤ 0 ∨ q ≤ 0) ∧ x = some 0) ∨
    0 < p ∧ 0 < q ∧ (t.maxOne [some f] p q = .ok x ∨ t.maxOne [some f] p q = .error .calculation ∧ x = none)

theorem loop_spec (t : Train F R) (f : F) : ∀ (ps qs : List ℚ) (l : List Fl), t.maxLoop (some [some f]) ps qs = .ok l →
    l.length = ps.length ∧ ∀ (i : ℕ) (p : ℚ), ps[i]? = some p → ∃ x, l[i]? = some x ∧ Capacity t f p qs[i]? x
  | [], _, l, h => by
    have h := Except.ok.inj h
    subst h
    exact ⟨rfl, fun i p hp => by simp at hp⟩
  | p :: ps, [], l, h => by
    rw [Train.maxLoop] at h
    cases hl : t.maxLoop (some [some f]) ps [] with
    | error e => rw [hl] at h; cases h
    | ok l' =>
      rw [hl] at h
      have h := Except.ok.inj h
      subst h
      obtain ⟨a, b⟩ := loop_spec t f ps [] l' hl
      refine ⟨by simp [a], ?_⟩
      intro i p' hp
      cases i with
      | zero => exact ⟨none, rfl, rfl⟩
      | succ i => exact b i p' hp
  | p :: ps, q :: qs, l, h => by
    rw [Train.maxLoop] at h
    have key : ∀ (y : Fl), (if p ≤ 0 ∨ q ≤ 0 then .ok (some 0)
        else match t.maxOne [some f] p q with
          | .error .calculation => .ok none
          | r => r : Except FErr Fl) = .ok y → Capacity t f p (some q) y := by
      intro y hy
      by_cases hc : p ≤ 0 ∨ q ≤ 0
      · rw [if_pos hc] at hy
        exact .inl ⟨hc, (Except.ok.inj hy).symm⟩
      · rw [if_neg hc] at hy
        push Not at hc
        refine .inr ⟨hc.1, hc.2, ?_⟩
        cases hm : t.maxOne [some f] p q with
        | ok x => rw [hm] at hy; exact .inl hy
        | error e =>
          rw [hm] at hy
          cases e with
          | calculation => exact .inr ⟨rfl, (Except.ok.inj hy).symm⟩
          | _ => cases hy
    revert h key
    generalize (if p ≤ 0 ∨ q ≤ 0 then .ok (some 0)
        else match t.maxOne [some f] p q with
          | .error .calculation => .ok none
          | r => r : Except FErr Fl) = A
    intro h key
    cases A with
    | error e => cases h
    | ok y =>
      dsimp only at h
      cases hl : t.maxLoop (some [some f]) ps qs with
      | error e => rw [hl] at h; cases h
      | ok l' =>
        rw [hl] at h
        have h := Except.ok.inj h
        subst h
        obtain ⟨a, b⟩ := loop_spec t f ps qs l' hl
        refine ⟨by simp [a], ?_⟩
        intro i p' hp
        cases i with
        | zero =>
          cases hp
          exact ⟨y, rfl, key y rfl⟩
        | succ i => exact b i p' hp

/-- **C117, maximum rates.** A train alone has a maximum rate for each suction pressure: zero if a pressure is not positive,
else what the calculation gives, nothing if it fails; trains with several ports are refused. -/
theorem C117_max_rates (t : Train F R) (f : F) (ps pd : List ℚ) :
    (1 < t.ports → ((alone (T := T) t f).maxRate State.fresh ps pd none).1 = .error .validation) ∧
    ∀ l, ((alone (T := T) t f).maxRate State.fresh ps pd none).1 = .ok l →
      l.length = ps.length ∧ ∀ (i : ℕ) (p : ℚ), ps[i]? = some p → ∃ x, l[i]? = some x ∧ Capacity t f p pd[i]? x := by
  have e : ((alone (T := T) t f).maxRate State.fresh ps pd none).1 = t.maxRates (some [some f]) ps pd := rfl
  rw [e]
  unfold Train.maxRates
  refine ⟨fun h => by rw [if_pos h], ?_⟩
  intro l h
  by_cases hp : 1 < t.ports
  · rw [if_pos hp] at h; cases h
  · rw [if_neg hp] at h
    exact loop_spec t f ps pd l h

theorem collect_spec {α β : Type} (g : α → Except FErr β) : ∀ (as : List α) (bs : List β), collect g as = .ok bs →
    bs.length = as.length ∧ ∀ (i : ℕ) (a : α), as[i]? = some a → ∃ b, bs[i]? = some b ∧ g a = .ok b
  | [], bs, h => by
    have h := Except.ok.inj h
    subst h
    exact ⟨rfl, fun i p hp => by simp at hp⟩
  | a :: as, bs, h => by
    rw [collect] at h
    cases ha : g a with
    | error e => rw [ha] at h; cases h
    | ok b =>
      rw [ha] at h
      dsimp only at h
      cases hl : collect g as with
      | error e => rw [hl] at h; cases h
      | ok bs' =>
        rw [hl] at h
        have h := Except.ok.inj h
        subst h
        obtain ⟨x, y⟩ := collect_spec g as bs' hl
        refine ⟨by simp [x], ?_⟩
        intro i a' hi
        cases i with
        | zero => cases hi; exact ⟨b, rfl, ha⟩
        | succ i => exact y i a' hi

/-- The power that is reported: adjusted where it is positive. -/
def Adjusted (factor constant : ℚ) (x y : Fl) : Prop :=
  (x = none ∧ y = none) ∨ ∃ a, x = some a ∧ ((0 < a ∧ y = some (a * factor + constant)) ∨ (a ≤ 0 ∧ y = some a))

theorem adjust_spec (factor constant : ℚ) (x : Fl) : Adjusted factor constant x (adjust factor constant x) := by
  cases x with
  | none => exact .inl ⟨rfl, rfl⟩
  | some a =>
    unfold adjust
    dsimp only
    by_cases h : 0 < a
    · rw [if_pos h]; exact .inr ⟨a, rfl, .inl ⟨h, rfl⟩⟩
    · rw [if_neg h]; exact .inr ⟨a, rfl, .inr ⟨not_lt.mp h, rfl⟩⟩

/-- **C117, time steps.** In the result of a train of a component each time step is calculated from its own rates and
pressures and the fluid model of the component; the power is adjusted where it is positive; the maximum rates are reported
for the same pressures if the train is set up for it. -/
theorem C117_steps (t : Train F R) (f : F) (rates : List (List Fl)) (ps pd : List ℚ) (d : Option (List ℚ))
    (a : Answer R T) (h : ((alone (T := T) t f).evaluate State.fresh rates ps pd d).1 = .ok a) :
    a.turbine = none ∧
    a.result.steps.length = min (min rates.length ps.length) pd.length ∧
    (∀ (i : ℕ) (r : List Fl) (p q : ℚ), rates[i]? = some r → ps[i]? = some p → pd[i]? = some q →
      ∃ x, a.result.steps[i]? = some x ∧ t.step [some f] ⟨r, p, none, q⟩ = .ok x) ∧
    (∃ vs, a.result.power = some vs ∧ List.Forall₂ (Adjusted t.factor t.constant) (a.result.steps.map t.power) vs) ∧
    (t.reportsMax = true → ((alone (T := T) t f).maxRate State.fresh ps pd none).1 = .ok a.result.maxRate) ∧
    (t.reportsMax = false → a.result.maxRate = ps.map fun _ => none) := by
  unfold alone Component.evaluate Inner.ask at h
  dsimp only [Option.isNone] at h
  simp only [Bool.false_eq_true, if_false] at h
  cases hs : (Inner.train t : Inner F R).set State.fresh ⟨some rates, .one (some f), some ps, some pd, none⟩ with
  | error e => rw [hs] at h; cases h
  | ok s =>
    rw [hs] at h
    have hst : s = ⟨some ⟨some rates, some ps, some pd, none⟩, some [some f]⟩ := by
      unfold Inner.set at hs
      dsimp only at hs
      split at hs
      · cases hs
      split at hs
      · cases hs
      split at hs
      · cases hs
      split at hs
      · cases hs
      exact (Except.ok.inj hs).symm
    subst hst
    dsimp only at h
    cases he : (Inner.train t : Inner F R).evaluate ⟨some ⟨some rates, some ps, some pd, none⟩, some [some f]⟩ with
    | error e => rw [he] at h; cases h
    | ok r =>
      rw [he] at h
      have h := Except.ok.inj h
      subst h
      unfold Inner.evaluate Train.evaluate at he
      dsimp only at he
      cases hc : collect (t.step [some f]) (stepsOf rates ps none pd) with
      | error e => rw [hc] at he; cases he
      | ok rs =>
        rw [hc] at he
        dsimp only at he
        obtain ⟨hl, hi⟩ := collect_spec _ _ _ hc
        have hsteps : rs.length = min (min rates.length ps.length) pd.length := by
          rw [hl]
          unfold stepsOf
          simp
        have hget : ∀ (i : ℕ) (r : List Fl) (p q : ℚ), rates[i]? = some r → ps[i]? = some p → pd[i]? = some q →
            ∃ x, rs[i]? = some x ∧ t.step [some f] ⟨r, p, none, q⟩ = .ok x := by
          intro i r p q hr hp hq
          refine hi i ⟨r, p, none, q⟩ ?_
          unfold stepsOf
          obtain ⟨hlt, hval⟩ := List.getElem?_eq_some_iff.mp hp
          simp [List.getElem?_zipWith, hlt, hr, hq, List.zip, hval]
        have hpow : List.Forall₂ (Adjusted t.factor t.constant) (rs.map t.power)
            (rs.map fun r => adjust t.factor t.constant (t.power r)) := by
          rw [List.forall₂_map_left_iff, List.forall₂_map_right_iff]
          exact List.forall₂_same.mpr fun x _ => adjust_spec _ _ _
        by_cases hm : t.reportsMax = true
        · rw [if_pos hm] at he
          cases hx : t.maxRates (some [some f]) ps pd with
          | error e => rw [hx] at he; cases he
          | ok m =>
            rw [hx] at he
            have he := Except.ok.inj he
            subst he
            exact ⟨rfl, hsteps, hget, ⟨_, rfl, hpow⟩, fun _ => hx, (fun h => by rw [hm] at h; cases h)⟩
        · rw [if_neg hm] at he
          have he := Except.ok.inj he
          subst he
          exact ⟨rfl, hsteps, hget, ⟨_, rfl, hpow⟩, fun h => absurd h hm, fun _ => rfl⟩

/-- **C117, turbine.** With a turbine the same enquiry gives the result of the compressor alone, and the turbine is run with
its power, adjusted once more. -/
theorem C117_driven (w : Wrapper T) (m : Inner F R) (f : Option F) (rates : List (List Fl)) (ps pd : List ℚ)
    (d : Option (List ℚ)) (a : Answer R T)
    (h : ((⟨.turbine w m, f⟩ : Component F R T).evaluate State.fresh rates ps pd d).1 = .ok a) :
    ((⟨.plain m, f⟩ : Component F R T).evaluate State.fresh rates ps pd d).1 = .ok ⟨a.result, none⟩ ∧
    ((a.result.power = none ∧ a.turbine = none) ∨ ∃ vs ls o, a.result.power = some vs ∧
      List.Forall₂ (Adjusted w.factor w.constant) vs ls ∧ w.turbine ls = .ok o ∧ a.turbine = some o) := by
  unfold Component.evaluate at h ⊢
  dsimp only at h ⊢
  revert h
  generalize m.ask State.fresh rates ps pd f = A
  obtain ⟨a1, a2⟩ := A
  intro h
  cases a1 with
  | error e => cases h
  | ok r =>
    dsimp only at h ⊢
    unfold Wrapper.drive at h
    cases hp : r.power with
    | none =>
      rw [hp] at h
      have h := Except.ok.inj h
      subst h
      exact ⟨rfl, .inl ⟨hp, rfl⟩⟩
    | some vs =>
      rw [hp] at h
      dsimp only at h
      cases ht : w.turbine (vs.map (adjust w.factor w.constant)) with
      | error e => rw [ht] at h; cases h
      | ok o =>
        rw [ht] at h
        have h := Except.ok.inj h
        subst h
        refine ⟨rfl, .inr ⟨vs, _, o, hp, ?_, ht, rfl⟩⟩
        rw [List.forall₂_map_right_iff]
        exact List.forall₂_same.mpr fun x _ => adjust_spec _ _ _

/-! ## Findings -/

/-- **C117, finding.** The maximum rate of a sampled compressor with a turbine is never answered: the model asks for a fluid
model that sampled compressors do not have (`AttributeError`). -/
theorem C117_sampled_turbine (w : Wrapper T) (m : Sampled R) (f : Option F) (ps pd : List ℚ) (d : Option (List ℚ)) :
    ((⟨.turbine w (.sampled m), f⟩ : Component F R T).maxRate State.fresh ps pd d).1 =
      match m.maxRates ps pd with
      | .ok _ => .error .missing
      | .error e => .error e := by
  unfold Component.maxRate Wrapper.maxRates Inner.maxRates
  dsimp only
  cases m.maxRates ps pd with
  | error e => rfl
  | ok l => rfl

/-- **C117, finding.** A train with control of an interstage pressure cannot be part of a consumer system: every evaluation
is refused, with or without turbine, as the component has no way to pass the pressure. -/
theorem C117_interstage (t : Train F R) (ht : t.interstage = true) (f : F) (w : Wrapper T) (rates : List (List Fl))
    (ps pd : List ℚ) (d : Option (List ℚ)) :
    ((alone (T := T) t f).evaluate State.fresh rates ps pd d).1 = .error .validation ∧
    ((driven w t f).evaluate State.fresh rates ps pd d).1 = .error .validation ∧
    ∀ l, ((driven w t f).maxRate State.fresh ps pd d).1 ≠ .ok l := by
  have hset : ∀ (s : State F) (r : Option (List (List Fl))) (fl : FluidArg F),
      (Inner.train t : Inner F R).set s ⟨r, fl, some ps, some pd, none⟩ = .error .validation := by
    intro s r fl
    unfold Inner.set
    dsimp only
    rw [if_neg (by simp), if_neg (by simp), if_pos ⟨ht, rfl⟩]
  refine ⟨?_, ?_, ?_⟩
  · unfold alone Component.evaluate Inner.ask
    dsimp only [Option.isNone]
    simp only [Bool.false_eq_true, if_false, hset]
  · unfold driven Component.evaluate Inner.ask
    dsimp only [Option.isNone]
    simp only [Bool.false_eq_true, if_false, hset]
  · intro l h
    unfold driven Component.maxRate Wrapper.maxRates at h
    dsimp only at h
    have hm : (Inner.train t : Inner F R).maxRates (State.fresh.given (some f)) ps pd =
      t.maxRates (State.fresh.given (some f)).fluids ps pd := rfl
    rw [hm] at h
    cases hcs : t.maxRates (State.fresh.given (some f)).fluids ps pd with
    | error e => rw [hcs] at h; cases h
    | ok cs =>
      rw [hcs] at h
      have hfl : (State.fresh.given (some f)).fluids = some [some f] := rfl
      rw [hfl] at h
      dsimp only at h
      rw [hset] at h
      cases h

/-! ## Examples -/

/-- A train whose power is a hundredth of the rate times the ratio of pressures, and which can take a rate of 1000. -/
def train : Train String Fl where
  interstage := false
  ports := 1
  step := fun _ x => .ok ((x.rates.headD none).map fun r => r / 100 * (x.pd / x.ps))
  power := id
  factor := 1
  constant := 0
  maxOne := fun _ _ _ => .ok (some 1000)
  reportsMax := false

/-- A root finder for lines: the line through the values at the bounds. -/
def line : Finder where
  limit := 50
  next := fun lo hi seen =>
    match hi, seen with
    | none, _ => .fail .value
    | some _, [] => .probe lo
    | some h, [_] => .probe h
    | some h, (_, a) :: (_, b) :: _ =>
      match a, b with
      | .ok (some a), .ok (some b) => .root (lo - a * (h - lo) / (b - a))
      | _, _ => .fail .calculation

/-- A turbine for 15 MW; the load is adjusted by a constant of 2 MW. -/
def turbine : Wrapper (List Fl) := ⟨1, 2, 15, fun l => .ok l, line⟩

/-- The second time step is limited by the turbine; before and after other enquiries. -/
example : (driven turbine train "dry").answers State.fresh
    [.maxRate [10, 10] [10, 20] none, .evaluate [[some 100]] [10] [30] none, .maxRate [10, 10] [10, 20] none] =
    [.ok (.rates [some 1000, some (14999 / 20)]),
      .ok (.result ⟨⟨[some 3], some [some 3], [none]⟩, some [some 5]⟩),
      .ok (.rates [some 1000, some (14999 / 20)])] := by decide +kernel

/-- Asked directly after a maximum rate, the train evaluates the last rate the root finder tried. -/
example : (Inner.train train).evaluate ((driven turbine train "dry").maxRate State.fresh [10] [20] none).2 =
    .ok ⟨[some 20], some [some 20], [none]⟩ := by decide +kernel

/-- **C117, finding.** The maximum rate is that for the power of the compressor; with the adjustment of the energy usage the
load of the turbine at that rate is above what it delivers. -/
theorem C117_adjusted : ∃ y : ℚ, ((driven turbine train "dry").maxRate State.fresh [10] [20] none).1 = .ok [some y] ∧
    (match ((driven turbine train "dry").evaluate State.fresh [[some y]] [10] [20] none).1 with
      | .ok ⟨_, some [some load]⟩ => decide (turbine.maxPower < load)
      | _ => false) = true := ⟨14999 / 20, by decide +kernel⟩

end Verif.C117
