import Mathlib.Tactic.Linarith
import Mathlib.Tactic.NormNum
import Mathlib.Tactic.Ring
import Mathlib.Tactic.FieldSimp
import Mathlib.Tactic.FinCases
import Verif.Model.Flash
import Verif.Props.C36
import Verif.Props.C85

/-!
C106: what the thermodynamic service answers from its caches.

The specification is the same service without caches: a reference fluid is created for every request. The theorems relate
the answers after any history of requests to it: which requests may share an answer, and when the caches cannot be seen
at all.
-/

namespace Verif.C106

open Verif.Time (dictSet)
open Verif.Process Verif.Cache Verif.Flash

variable {σ α β : Type}

/-! ## Specification: the service without caches -/

/-- Errors of compositions and of NeqSim as errors of the service. -/
def up (x : Except PErr α) : Except FErr α :=
  match x with
  | .ok a => .ok a
  | .error e => .error (.thermo e)

/-- The reference fluid of a model, created anew. -/
def plainRef (B : Backend σ) (m : FluidModel) : Except FErr σ := do
  let c ← up m.composition.normalized
  up (B.create m.eos c)

/-- The outcome of a flash, given the outcomes of asking for the reference fluid and for the standard density. -/
def outcome (B : Backend σ) (m : FluidModel) (ref : Except FErr σ) (std : Except FErr (Option ℚ))
    (flash : σ → Except PErr σ) : Except FErr Result := do
  let r ← ref
  let f ← up (flash r)
  let mass ← up (molarMass m.composition)
  let d ← std
  return B.read f mass d

/-- A result is refused if it does not have the enthalpy asked for. -/
def checked (h : ℚ) (o : Except FErr Result) : Except FErr Result := do
  let r ← o
  if accepted r h then return r else throw .rejected

/-- The density of the gas at standard conditions, given the outcome of asking for the reference fluid. -/
def densityOf (B : Backend σ) (ref : Except FErr σ) : Except FErr (Option ℚ) := do
  let r ← ref
  up (B.gasDensity r)

/-- A flash to pressure and temperature without caches. -/
def plainPt (B : Backend σ) (m : FluidModel) (p t : ℚ) : Except FErr Result :=
  outcome B m (plainRef B m) (densityOf B (plainRef B m)) fun ref => B.tp ref p t

/-- A flash to pressure and enthalpy without caches. -/
def plainPh (B : Backend σ) (m : FluidModel) (p h : ℚ) (guess : Option ℚ) : Except FErr Result :=
  checked h (outcome B m (plainRef B m) (densityOf B (plainRef B m)) fun ref => B.solve ref p h guess)

/-- The gas of a fluid without caches. -/
def plainGasSystem (B : Backend σ) (m : FluidModel) (p t : ℚ) : Except FErr (σ × FluidModel) := do
  let ref ← plainRef B m
  let f ← up (B.tp ref p t)
  let g ← up (B.gas f)
  let c ← up (fromNeqsim (B.components g))
  return (g, ⟨m.eos, c⟩)

/-- The properties of a system of a model, without caches. -/
def plainRead (B : Backend σ) (f : σ) (m : FluidModel) : Except FErr Result := do
  let mass ← up (molarMass m.composition)
  let d ← densityOf B (plainRef B m)
  return B.read f mass d

/-- `remove_liquid` without caches. -/
def plainLiquid (B : Backend σ) (m : FluidModel) (props : Result) : Except FErr (FluidModel × Result) :=
  if allVapor props.vapor then return (m, props)
  else match props.pressure, props.temperature with
    | some p, some t => do
      let g ← plainGasSystem B m p t
      let r ← plainRead B g.1 g.2
      return (g.2, r)
    | _, _ => do
      let _ ← plainRef B m
      throw (.thermo .thermo)

/-- A call of the service. -/
inductive Op where
  | pt (m : FluidModel) (p t : ℚ)
  | ph (m : FluidModel) (p h : ℚ) (guess : Option ℚ)
  | liquid (m : FluidModel) (props : Result)
  | density (m : FluidModel)
  | clear

/-- The state after a call, whether it succeeds or not. -/
def step (B : Backend σ) (s : Svc σ) : Op → Svc σ
  | .pt m p t => (flashPt B m p t s).1
  | .ph m p h g => (flashPh B m p h g s).1
  | .liquid m r => (removeLiquid B m r s).1
  | .density m => (standardDensity B m s).1
  | .clear => (clearAll s).1

/-- The state after some calls of a service with caches of the given sizes. -/
def after (B : Backend σ) (nr nf : ℤ) (ops : List Op) : Svc σ := ops.foldl (step B) ⟨LRU.new nr, LRU.new nf⟩

/-- The calls since the caches were cleared. -/
def since : List Op → List Op → List Op
  | acc, [] => acc
  | _, .clear :: ops => since [] ops
  | acc, op :: ops => since (op :: acc) ops

/-- Two models with the same equation of state whose normalised fractions differ by at most 1e-8. -/
def Near (m m' : FluidModel) : Prop :=
  m.eos = m'.eos ∧ ∃ c c', m.composition.normalized = .ok c ∧ m'.composition.normalized = .ok c' ∧
    ∀ k, |c k - c' k| ≤ 1 / 10 ^ 8

/-- Two models with the same equation of state and the same normalised fractions. -/
def Same (m m' : FluidModel) : Prop := m.eos = m'.eos ∧ m.composition.normalized = m'.composition.normalized

/-- Two numbers that differ by at most 1e-6. -/
def Close (x y : ℚ) : Prop := |x - y| ≤ 1 / 10 ^ 6

/-- What may come out when asking for the reference fluid of `m`: that of a model near it. -/
def RefOf (B : Backend σ) (m : FluidModel) (o : Except FErr σ) : Prop :=
  o = plainRef B m ∨ ∃ m', Near m m' ∧ o = plainRef B m'

/-- What may come out of computing a flash with reference fluids of models near `m`. -/
def Computed (B : Backend σ) (m : FluidModel) (flash : σ → Except PErr σ) (o : Except FErr Result) : Prop :=
  ∃ ref ref', RefOf B m ref ∧ RefOf B m ref' ∧ o = outcome B m ref (densityOf B ref') flash

/-! ## Rounding -/

theorem steps_close (n : ℕ) (x y : ℚ) (h : steps n x = steps n y) : |x - y| ≤ 1 / 10 ^ n := by
  have h1 := C85.half_error (x * 10 ^ n)
  have h2 := C85.half_error (y * 10 ^ n)
  unfold steps at h
  rw [h] at h1
  have hp : (0 : ℚ) < 10 ^ n := by positivity
  have he : |x - y| * 10 ^ n = |x * 10 ^ n - y * 10 ^ n| := by rw [← sub_mul, abs_mul, abs_of_pos hp]
  rw [le_div_iff₀ hp, he]
  rw [abs_le] at *
  constructor <;> linarith [h1.1, h1.2, h2.1, h2.2]

theorem mem_byName (k : Component) : k ∈ byName := by cases k <;> simp [byName]

theorem key_close {c c' : Composition} (h : compositionKey c = compositionKey c') (k : Component) :
    |c k - c' k| ≤ 1 / 10 ^ 8 := by
  unfold compositionKey at h
  have := (List.map_inj_left.1 h) k (mem_byName k)
  exact steps_close 8 _ _ (Prod.mk.inj this).2

/-! ## Entries of a cache -/

section cache
variable {κ ν : Type} [DecidableEq κ]

theorem mem_dictSet (k : κ) (v : ν) (l : List (κ × ν)) (e : κ × ν) (h : e ∈ dictSet k v l) : e = (k, v) ∨ e ∈ l := by
  induction l with
  | nil => simpa [dictSet] using h
  | cons a l ih =>
    unfold dictSet at h
    split at h
    · rename_i hk
      rcases List.mem_cons.1 h with h | h
      · exact .inl (by rw [h, hk])
      · exact .inr (List.mem_cons_of_mem _ h)
    · rcases List.mem_cons.1 h with h | h
      · exact .inr (h ▸ List.mem_cons_self)
      · rcases ih h with h | h
        · exact .inl h
        · exact .inr (List.mem_cons_of_mem _ h)

omit [DecidableEq κ] in
theorem mem_evict (n : ℤ) (l : List (κ × ν)) (e : κ × ν) (h : e ∈ (evict n l).1) : e ∈ l := by
  induction l with
  | nil => simp [evict] at h
  | cons a l ih =>
    unfold evict at h
    split at h
    · exact List.mem_cons_of_mem _ (ih h)
    · exact h

omit [DecidableEq κ] in
theorem evict_ok (n : ℤ) (hn : 0 ≤ n) (l : List (κ × ν)) : (evict n l).2.2 = false := by
  induction l with
  | nil => simp [evict]; omega
  | cons a l ih =>
    unfold evict
    split
    · exact ih
    · rfl

theorem mem_move (k : κ) (l : List (κ × ν)) (e : κ × ν) (h : e ∈ moveToEnd k l) : e ∈ l := by
  unfold moveToEnd at h
  rcases List.mem_append.1 h with h | h <;> exact (List.mem_filter.1 h).1

theorem lookup_mem (k : κ) (v : ν) (l : List (κ × ν)) (h : l.lookup k = some v) : (k, v) ∈ l := by
  induction l with
  | nil => simp at h
  | cons a l ih =>
    rw [List.lookup_cons] at h
    split at h
    · rename_i hk
      have hk : k = a.1 := by simpa using hk
      have := Option.some.inj h
      exact List.mem_cons.2 (.inl (by rw [hk, ← this]))
    · exact List.mem_cons_of_mem _ (ih h)

theorem get_size (c : LRU κ ν) (k : κ) : (c.get k).1.maxSize = c.maxSize := by
  unfold LRU.get; split <;> rfl

theorem put_size (c : LRU κ ν) (k : κ) (v : ν) : (c.put k v).1.maxSize = c.maxSize := by
  unfold LRU.put; split <;> rfl

theorem get_mem (c : LRU κ ν) (k : κ) (e : κ × ν) (h : e ∈ (c.get k).1.entries) : e ∈ c.entries := by
  unfold LRU.get at h
  split at h
  · exact mem_move _ _ _ h
  · exact h

theorem get_value (c : LRU κ ν) (k : κ) : (c.get k).2 = c.entries.lookup k := by
  unfold LRU.get; split <;> rename_i h <;> exact h.symm

theorem put_mem (c : LRU κ ν) (k : κ) (v : ν) (e : κ × ν) (h : e ∈ (c.put k v).1.entries) :
    e = (k, v) ∨ e ∈ c.entries := by
  unfold LRU.put at h
  split at h
  · exact .inr h
  · rcases mem_dictSet _ _ _ _ (mem_evict _ _ _ h) with h | h
    · exact .inl h
    · right
      split at h
      · exact mem_move _ _ _ h
      · exact h

theorem put_ok (c : LRU κ ν) (hc : 0 ≤ c.maxSize) (k : κ) (v : ν) : (c.put k v).2 = .ok () := by
  unfold LRU.put
  split
  · rfl
  · simp only [evict_ok _ hc]; rfl

end cache

/-! ## Calls that keep an invariant -/

/-- From any state with `I`, the call keeps `I` and what it gives has `Q`. -/
def Tri (I : Svc σ → Prop) (x : M σ α) (Q : Except FErr α → Prop) : Prop := ∀ s, I s → I (x s).1 ∧ Q (x s).2

theorem tri_bind {I : Svc σ → Prop} {x : M σ α} {f : α → M σ β} {Q : Except FErr α → Prop} {R : Except FErr β → Prop}
    (hx : Tri I x Q) (hok : ∀ a, Q (.ok a) → Tri I (f a) R) (herr : ∀ e, Q (.error e) → R (.error e)) :
    Tri I (x >>= f) R := by
  intro s hs
  have h := hx s hs
  change I (M.andThen x f s).1 ∧ R (M.andThen x f s).2
  unfold M.andThen
  rcases hxs : x s with ⟨s', o⟩
  rw [hxs] at h
  cases o with
  | ok a => exact hok a h.2 s' h.1
  | error e => exact ⟨h.1, herr e h.2⟩

theorem tri_pure {I : Svc σ → Prop} (a : α) {Q : Except FErr α → Prop} (h : Q (.ok a)) : Tri I (pure a : M σ α) Q :=
  fun _ hs => ⟨hs, h⟩

theorem tri_lift {I : Svc σ → Prop} (x : Except PErr α) : Tri I (lift x : M σ α) (· = up x) := by
  intro s hs
  unfold lift up
  cases x <;> exact ⟨hs, rfl⟩

theorem tri_weaken {I : Svc σ → Prop} {x : M σ α} {Q R : Except FErr α → Prop} (h : Tri I x Q) (hqr : ∀ o, Q o → R o) :
    Tri I x R := fun s hs => ⟨(h s hs).1, hqr _ (h s hs).2⟩

/-- Sizes that are not negative; entries with the given properties. -/
structure Holds (PR : RefKey → σ → Prop) (PF : Key → Result → Prop) (s : Svc σ) : Prop where
  refSize : 0 ≤ s.refs.maxSize
  flashSize : 0 ≤ s.flashes.maxSize
  refs : ∀ e ∈ s.refs.entries, PR e.1 e.2
  flashes : ∀ e ∈ s.flashes.entries, PF e.1 e.2

variable {PR : RefKey → σ → Prop} {PF : Key → Result → Prop}

theorem tri_getRef (k : RefKey) : Tri (Holds PR PF) (getRef k) (fun o => ∃ x, o = .ok x ∧ ∀ v, x = some v → PR k v) := by
  intro s hs
  refine ⟨⟨by simpa [getRef, get_size] using hs.refSize, hs.flashSize, ?_, hs.flashes⟩, _, rfl, ?_⟩
  · exact fun e he => hs.refs e (get_mem _ _ _ he)
  · intro v hv
    rw [get_value] at hv
    exact hs.refs _ (lookup_mem _ _ _ hv)

theorem tri_putRef (k : RefKey) (v : σ) (h : PR k v) : Tri (Holds PR PF) (putRef k v) (· = .ok ()) := by
  intro s hs
  refine ⟨⟨by simpa [putRef, put_size] using hs.refSize, hs.flashSize, ?_, hs.flashes⟩, ?_⟩
  · intro e he
    rcases put_mem _ _ _ _ he with rfl | he
    · exact h
    · exact hs.refs e he
  · simp only [putRef, put_ok _ hs.refSize]

theorem tri_getFlash (k : Key) :
    Tri (Holds PR PF) (getFlash k : M σ _) (fun o => ∃ x, o = .ok x ∧ ∀ v, x = some v → PF k v) := by
  intro s hs
  refine ⟨⟨hs.refSize, by simpa [getFlash, get_size] using hs.flashSize, hs.refs, ?_⟩, _, rfl, ?_⟩
  · exact fun e he => hs.flashes e (get_mem _ _ _ he)
  · intro v hv
    rw [get_value] at hv
    exact hs.flashes _ (lookup_mem _ _ _ hv)

theorem tri_putFlash (k : Key) (v : Result) (h : PF k v) :
    Tri (Holds PR PF) (putFlash k v : M σ _) (· = .ok ()) := by
  intro s hs
  refine ⟨⟨hs.refSize, by simpa [putFlash, put_size] using hs.flashSize, hs.refs, ?_⟩, ?_⟩
  · intro e he
    rcases put_mem _ _ _ _ he with rfl | he
    · exact h
    · exact hs.flashes e he
  · simp only [putFlash, put_ok _ hs.flashSize]

/-- A reference fluid of a model near `m` under each key of the first cache. -/
def RefEntry (B : Backend σ) (S : FluidModel → Prop) (k : RefKey) (v : σ) : Prop :=
  ∃ m c, S m ∧ m.composition.normalized = .ok c ∧ k = (compositionKey c, m.eos) ∧ B.create m.eos c = .ok v

/-- What the reference fluid of `m` may be when those of the models `S` are stored. -/
def RefIn (B : Backend σ) (S : FluidModel → Prop) (m : FluidModel) (o : Except FErr σ) : Prop :=
  o = plainRef B m ∨ ∃ m', S m' ∧ Near m m' ∧ o = plainRef B m'

theorem tri_reference (B : Backend σ) (S : FluidModel → Prop) (m : FluidModel) (hm : S m) :
    Tri (Holds (RefEntry B S) PF) (reference B m) (RefIn B S m) := by
  unfold reference
  cases hn : m.composition.normalized with
  | error e =>
    refine tri_bind (tri_lift _) (fun a ha => ?_) (fun e' he => ?_)
    · simp [up] at ha
    · left
      simp only [up, Except.error.injEq] at he
      simp [plainRef, hn, up, Bind.bind, Except.bind, he]
  | ok c =>
    refine tri_bind (tri_lift _) (fun a ha => ?_) (fun e' he => by simp [up] at he)
    simp only [up, Except.ok.injEq] at ha
    subst ha
    refine tri_bind (tri_getRef _) (fun x hx => ?_) (fun e' he => by obtain ⟨_, h, _⟩ := he; cases h)
    obtain ⟨x', hx', hv⟩ := hx
    cases Except.ok.inj hx'
    cases x with
    | some ref =>
      refine tri_pure _ ?_
      obtain ⟨m', c', hs, hn', hk, hc⟩ := hv ref rfl
      obtain ⟨hk1, hk2⟩ := Prod.mk.inj hk
      right
      refine ⟨m', hs, ⟨hk2, a, c', hn, hn', key_close hk1⟩, ?_⟩
      simp [plainRef, hn', up, Bind.bind, Except.bind, hc]
    | none =>
      unfold makeReference
      dsimp only
      cases hc : B.create m.eos a with
      | error e =>
        refine tri_bind (tri_lift _) (fun b hb => by simp [up] at hb) (fun e' he => ?_)
        left
        simp only [up, Except.error.injEq] at he
        simp [plainRef, hn, up, Bind.bind, Except.bind, hc, he]
      | ok ref =>
        refine tri_bind (tri_lift _) (fun b hb => ?_) (fun e' he => by simp [up] at he)
        simp only [up, Except.ok.injEq] at hb
        subst hb
        refine tri_bind (tri_putRef _ _ ⟨m, a, hm, hn, rfl, hc⟩) (fun b _ => ?_) (fun e' he => by cases he)
        refine tri_pure _ (.inl ?_)
        simp [plainRef, hn, up, Bind.bind, Except.bind, hc]

theorem tri_density (B : Backend σ) (S : FluidModel → Prop) (m : FluidModel) (hm : S m) :
    Tri (Holds (RefEntry B S) PF) (standardDensity B m) (fun o => ∃ ref, RefIn B S m ref ∧ o = densityOf B ref) := by
  unfold standardDensity
  refine tri_bind (tri_reference B S m hm) (fun a ha => ?_) (fun e he => ⟨_, he, rfl⟩)
  refine tri_weaken (tri_lift _) (fun o ho => ⟨_, ha, ?_⟩)
  rw [ho]; rfl

theorem tri_extract (B : Backend σ) (S : FluidModel → Prop) (m : FluidModel) (hm : S m) (f : σ) :
    Tri (Holds (RefEntry B S) PF) (extract B f m) (fun o => ∃ ref, RefIn B S m ref ∧
      o = (do let mass ← up (molarMass m.composition); let d ← densityOf B ref; return B.read f mass d)) := by
  unfold extract
  refine tri_bind (tri_lift _) (fun mass hmass => ?_) (fun e he => ⟨_, .inl rfl, by rw [← he]; rfl⟩)
  refine tri_bind (tri_density B S m hm) (fun d hd => ?_) (fun e he => ?_)
  · obtain ⟨ref, h1, h2⟩ := hd
    exact tri_pure _ ⟨ref, h1, by rw [← hmass, ← h2]; rfl⟩
  · obtain ⟨ref, h1, h2⟩ := he
    exact ⟨ref, h1, by rw [← hmass, ← h2]; rfl⟩

/-- What may come out of computing a flash when the reference fluids of the models `S` are stored. -/
def CompIn (B : Backend σ) (S : FluidModel → Prop) (m : FluidModel) (flash : σ → Except PErr σ)
    (o : Except FErr Result) : Prop :=
  ∃ ref ref', RefIn B S m ref ∧ RefIn B S m ref' ∧ o = outcome B m ref (densityOf B ref') flash

theorem tri_computePt (B : Backend σ) (S : FluidModel → Prop) (m : FluidModel) (hm : S m) (k : Key) (p t : ℚ)
    (hk : ∀ r, CompIn B S m (fun ref => B.tp ref p t) (.ok r) → PF k r) :
    Tri (Holds (RefEntry B S) PF) (computePt B k m p t) (CompIn B S m (fun ref => B.tp ref p t)) := by
  unfold computePt
  refine tri_bind (tri_reference B S m hm) (fun ref href => ?_) (fun e he => ⟨_, _, he, he, rfl⟩)
  refine tri_bind (tri_lift _) (fun f hf => ?_) (fun e he => ⟨_, _, href, href, ?_⟩)
  · refine tri_bind (tri_extract B S m hm f) (fun r hr => ?_) (fun e he => ?_)
    · obtain ⟨ref', h1, h2⟩ := hr
      have h3 : CompIn B S m (fun ref => B.tp ref p t) (.ok r) :=
        ⟨_, ref', href, h1, by rw [h2]; simp only [outcome, Bind.bind, Except.bind, ← hf]⟩
      exact tri_bind (tri_putFlash _ _ (hk r h3)) (fun _ _ => tri_pure _ h3) (fun e he => by cases he)
    · obtain ⟨ref', h1, h2⟩ := he
      exact ⟨_, ref', href, h1, by rw [h2]; simp only [outcome, Bind.bind, Except.bind, ← hf]⟩
  · simp only [outcome, Bind.bind, Except.bind, ← he]

theorem tri_computePh (B : Backend σ) (S : FluidModel → Prop) (m : FluidModel) (hm : S m) (k : Key) (p h : ℚ)
    (g : Option ℚ)
    (hk : ∀ r o, CompIn B S m (fun ref => B.solve ref p h g) o → .ok r = checked h o → PF k r) :
    Tri (Holds (RefEntry B S) PF) (computePh B k m p h g)
      (fun o => ∃ o', CompIn B S m (fun ref => B.solve ref p h g) o' ∧ o = checked h o') := by
  unfold computePh
  refine tri_bind (tri_reference B S m hm) (fun ref href => ?_) (fun e he => ⟨_, ⟨_, _, he, he, rfl⟩, rfl⟩)
  refine tri_bind (tri_lift _) (fun f hf => ?_) (fun e he => ⟨.error e, ⟨_, _, href, href, ?_⟩, rfl⟩)
  · refine tri_bind (tri_extract B S m hm f) (fun r hr => ?_) (fun e he => ?_)
    · obtain ⟨ref', h1, h2⟩ := hr
      have h3 : CompIn B S m (fun ref => B.solve ref p h g) (.ok r) :=
        ⟨_, ref', href, h1, by rw [h2]; simp only [outcome, Bind.bind, Except.bind, ← hf]⟩
      have hc : Tri (Holds (RefEntry B S) PF) (check r h : M σ Unit)
          (· = if accepted r h then .ok () else .error .rejected) := fun s hs => ⟨hs, rfl⟩
      by_cases ha : accepted r h = true
      · have h4 : Except.ok r = checked h (.ok r) := by
          simp [checked, Bind.bind, Except.bind, ha, pure, Except.pure]
        refine tri_bind hc (fun _ _ => ?_) (fun e he => by rw [if_pos ha] at he; cases he)
        exact tri_bind (tri_putFlash _ _ (hk r _ h3 h4)) (fun _ _ => tri_pure _ ⟨_, h3, h4⟩) (fun e he => by cases he)
      · refine tri_bind hc (fun a hx => by rw [if_neg ha] at hx; cases hx) (fun e he => ⟨_, h3, ?_⟩)
        rw [if_neg ha] at he
        rw [Except.error.inj he]
        simp [checked, Bind.bind, Except.bind, ha, throw, throwThe, MonadExceptOf.throw]
    · obtain ⟨ref', h1, h2⟩ := he
      exact ⟨.error e, ⟨_, ref', href, h1, by rw [h2]; simp only [outcome, Bind.bind, Except.bind, ← hf]⟩, rfl⟩
  · simp only [outcome, Bind.bind, Except.bind, ← he]

/-! ## Answers after any history -/

/-- No restriction on the models. -/
def anyModel : FluidModel → Prop := fun _ => True

theorem refIn_any (B : Backend σ) (m : FluidModel) (o : Except FErr σ) : RefIn B anyModel m o ↔ RefOf B m o := by
  unfold RefIn RefOf anyModel
  simp

theorem compIn_any (B : Backend σ) (m : FluidModel) (f : σ → Except PErr σ) (o : Except FErr Result) :
    CompIn B anyModel m f o ↔ Computed B m f o := by
  unfold CompIn Computed
  simp only [refIn_any]

/-- The result of a call among `A` under each key of the second cache. -/
def FlashEntry (B : Backend σ) (A : List Op) (k : Key) (r : Result) : Prop :=
  (∃ m p t c, Op.pt m p t ∈ A ∧ m.composition.normalized = .ok c ∧
    k = .tp (compositionKey c) m.eos (steps 6 p) (steps 6 t) ∧ Computed B m (fun ref => B.tp ref p t) (.ok r)) ∨
  (∃ m p h g c, Op.ph m p h g ∈ A ∧ m.composition.normalized = .ok c ∧
    k = .ph (compositionKey c) m.eos (steps 6 p) (steps 6 h) ∧
    ∃ o, Computed B m (fun ref => B.solve ref p h g) o ∧ .ok r = checked h o)

/-- An answer to a flash to pressure and temperature: computed for it, or for an earlier request close to it. -/
def AnswerPt (B : Backend σ) (A : List Op) (m : FluidModel) (p t : ℚ) (o : Except FErr Result) : Prop :=
  Computed B m (fun ref => B.tp ref p t) o ∨
  ∃ r m' p' t', o = .ok r ∧ Op.pt m' p' t' ∈ A ∧ Near m m' ∧ Close p p' ∧ Close t t' ∧
    Computed B m' (fun ref => B.tp ref p' t') (.ok r)

/-- An answer to a flash to pressure and enthalpy: computed for it, or for an earlier request close to it. -/
def AnswerPh (B : Backend σ) (A : List Op) (m : FluidModel) (p h : ℚ) (g : Option ℚ) (o : Except FErr Result) : Prop :=
  (∃ o', Computed B m (fun ref => B.solve ref p h g) o' ∧ o = checked h o') ∨
  ∃ r m' p' h' g', o = .ok r ∧ Op.ph m' p' h' g' ∈ A ∧ Near m m' ∧ Close p p' ∧ Close h h' ∧
    ∃ o', Computed B m' (fun ref => B.solve ref p' h' g') o' ∧ .ok r = checked h' o'

theorem norm_error_pt (B : Backend σ) (m : FluidModel) (e : PErr) (hn : m.composition.normalized = .error e)
    (S : FluidModel → Prop) (f : σ → Except PErr σ) : CompIn B S m f (.error (.thermo e)) := by
  have h : plainRef B m = .error (.thermo e) := by simp [plainRef, hn, up, Bind.bind, Except.bind]
  exact ⟨_, _, .inl rfl, .inl rfl, by rw [h]; rfl⟩

theorem tri_flashPt (B : Backend σ) (S : FluidModel → Prop) (m : FluidModel) (hm : S m) (p t : ℚ)
    (hk : ∀ c r, m.composition.normalized = .ok c → CompIn B S m (fun ref => B.tp ref p t) (.ok r) →
      PF (.tp (compositionKey c) m.eos (steps 6 p) (steps 6 t)) r) :
    Tri (Holds (RefEntry B S) PF) (flashPt B m p t) (fun o => CompIn B S m (fun ref => B.tp ref p t) o ∨
      ∃ r c, o = .ok r ∧ m.composition.normalized = .ok c ∧
        PF (.tp (compositionKey c) m.eos (steps 6 p) (steps 6 t)) r) := by
  unfold flashPt
  cases hn : m.composition.normalized with
  | error e =>
    refine tri_bind (tri_lift _) (fun a ha => by simp [up] at ha) (fun e' he => ?_)
    simp only [up, Except.error.injEq] at he
    subst he
    exact .inl (norm_error_pt B m e hn S _)
  | ok c =>
    refine tri_bind (tri_lift _) (fun a ha => ?_) (fun e' he => by simp [up] at he)
    simp only [up, Except.ok.injEq] at ha
    subst ha
    refine tri_bind (tri_getFlash _) (fun x hx => ?_) (fun e' he => by obtain ⟨_, h, _⟩ := he; cases h)
    obtain ⟨x', hx', hv⟩ := hx
    cases Except.ok.inj hx'
    cases x with
    | some r => exact tri_pure _ (.inr ⟨r, a, rfl, rfl, hv r rfl⟩)
    | none => exact tri_weaken (tri_computePt B S m hm _ p t (fun r => hk a r hn)) (fun o => .inl)

theorem tri_flashPh (B : Backend σ) (S : FluidModel → Prop) (m : FluidModel) (hm : S m) (p h : ℚ) (g : Option ℚ)
    (hk : ∀ c r o, m.composition.normalized = .ok c → CompIn B S m (fun ref => B.solve ref p h g) o →
      .ok r = checked h o → PF (.ph (compositionKey c) m.eos (steps 6 p) (steps 6 h)) r) :
    Tri (Holds (RefEntry B S) PF) (flashPh B m p h g)
      (fun o => (∃ o', CompIn B S m (fun ref => B.solve ref p h g) o' ∧ o = checked h o') ∨
      ∃ r c, o = .ok r ∧ m.composition.normalized = .ok c ∧
        PF (.ph (compositionKey c) m.eos (steps 6 p) (steps 6 h)) r) := by
  unfold flashPh
  cases hn : m.composition.normalized with
  | error e =>
    refine tri_bind (tri_lift _) (fun a ha => by simp [up] at ha) (fun e' he => ?_)
    simp only [up, Except.error.injEq] at he
    subst he
    exact .inl ⟨_, norm_error_pt B m e hn S _, rfl⟩
  | ok c =>
    refine tri_bind (tri_lift _) (fun a ha => ?_) (fun e' he => by simp [up] at he)
    simp only [up, Except.ok.injEq] at ha
    subst ha
    refine tri_bind (tri_getFlash _) (fun x hx => ?_) (fun e' he => by obtain ⟨_, h, _⟩ := he; cases h)
    obtain ⟨x', hx', hv⟩ := hx
    cases Except.ok.inj hx'
    cases x with
    | some r => exact tri_pure _ (.inr ⟨r, a, rfl, rfl, hv r rfl⟩)
    | none => exact tri_weaken (tri_computePh B S m hm _ p h g (fun r o => hk a r o hn)) (fun o => .inl)

/-- What may come out of the gas of a fluid when the reference fluids of the models `S` are stored. -/
def GasIn (B : Backend σ) (S : FluidModel → Prop) (m : FluidModel) (p t : ℚ) (o : Except FErr (FluidModel × Result)) :
    Prop :=
  ∃ ref, RefIn B S m ref ∧ ∃ read : σ → FluidModel → Except FErr Result,
    (∀ g m', S m' → ∃ ref', RefIn B S m' ref' ∧
      read g m' = (do let mass ← up (molarMass m'.composition); let d ← densityOf B ref'; return B.read g mass d)) ∧
    o = (do
      let r ← ref
      let f ← up (B.tp r p t)
      let g ← up (B.gas f)
      let c ← up (fromNeqsim (B.components g))
      let x ← read g ⟨m.eos, c⟩
      return (⟨m.eos, c⟩, x))

theorem tri_gasPart (B : Backend σ) (S : FluidModel → Prop) (m : FluidModel) (hm : S m) (p t : ℚ)
    (hg : ∀ ref f g c, RefIn B S m (.ok ref) → B.tp ref p t = .ok f → B.gas f = .ok g →
      fromNeqsim (B.components g) = .ok c → S ⟨m.eos, c⟩) :
    Tri (Holds (RefEntry B S) PF) (gasPart B m p t) (GasIn B S m p t) := by
  classical
  have std : ∀ g m', S m' → ∃ ref', RefIn B S m' ref' ∧ plainRead B g m' =
      (do let mass ← up (molarMass m'.composition); let d ← densityOf B ref'; return B.read g mass d) :=
    fun g m' _ => ⟨_, .inl rfl, rfl⟩
  unfold gasPart
  refine tri_bind (tri_reference B S m hm) (fun ref href => ?_) (fun e he => ⟨_, he, plainRead B, std, rfl⟩)
  refine tri_bind (tri_lift _) (fun f hf => ?_) (fun e he => ⟨_, href, plainRead B, std, ?_⟩)
  swap
  · simp only [Bind.bind, Except.bind, ← he]
  refine tri_bind (tri_lift _) (fun g hgas => ?_) (fun e he => ⟨_, href, plainRead B, std, ?_⟩)
  swap
  · simp only [Bind.bind, Except.bind, ← hf, ← he]
  refine tri_bind (tri_lift _) (fun c hc => ?_) (fun e he => ⟨_, href, plainRead B, std, ?_⟩)
  swap
  · simp only [Bind.bind, Except.bind, ← hf, ← hgas, ← he]
  have inj : ∀ {γ : Type} {x : Except PErr γ} {a : γ}, Except.ok a = up x → x = .ok a := by
    intro γ x a h
    cases x with
    | ok b => simp only [up, Except.ok.injEq] at h; rw [h]
    | error e => simp [up] at h
  have hS := hg ref f g c href (inj hf) (inj hgas) (inj hc)
  have key : ∀ o : Except FErr Result, (∃ ref', RefIn B S ⟨m.eos, c⟩ ref' ∧
      o = (do let mass ← up (molarMass c); let d ← densityOf B ref'; return B.read g mass d)) →
      GasIn B S m p t (do let x ← o; return (⟨m.eos, c⟩, x)) := by
    rintro o ⟨ref', h1, h2⟩
    refine ⟨_, href, fun g' m' => if g' = g ∧ m' = ⟨m.eos, c⟩ then o else plainRead B g' m', ?_, ?_⟩
    · intro g' m' hm'
      by_cases hcase : g' = g ∧ m' = ⟨m.eos, c⟩
      · obtain ⟨rfl, rfl⟩ := hcase
        dsimp only
        rw [if_pos ⟨rfl, rfl⟩]
        exact ⟨ref', h1, h2⟩
      · dsimp only
        rw [if_neg hcase]
        exact std g' m' hm'
    · simp only [Bind.bind, Except.bind, ← hf, ← hgas, ← hc]
      rw [if_pos (by simp)]
  refine tri_bind (tri_extract B S _ hS g) (fun r hr => tri_pure _ ?_) (fun e he => ?_)
  · exact key _ hr
  · exact key _ he

theorem near_of_key {m m' : FluidModel} {c c' : Composition} (hn : m.composition.normalized = .ok c)
    (hn' : m'.composition.normalized = .ok c') (he : m.eos = m'.eos) (hk : compositionKey c = compositionKey c') :
    Near m m' := ⟨he, c, c', hn, hn', key_close hk⟩

theorem answerPt_of (B : Backend σ) (A : List Op) (m : FluidModel) (p t : ℚ) (o : Except FErr Result)
    (h : CompIn B anyModel m (fun ref => B.tp ref p t) o ∨ ∃ r c, o = .ok r ∧ m.composition.normalized = .ok c ∧
      FlashEntry B (.pt m p t :: A) (.tp (compositionKey c) m.eos (steps 6 p) (steps 6 t)) r) :
    AnswerPt B A m p t o := by
  rcases h with h | ⟨r, c, ho, hn, h⟩
  · exact .inl ((compIn_any _ _ _ _).1 h)
  · rcases h with ⟨m', p', t', c', hin, hn', hk, hc⟩ | ⟨_, _, _, _, _, _, _, hk, _⟩
    · injection hk with h1 h2 h3 h4
      rcases List.mem_cons.1 hin with heq | hin
      · injection heq with e1 e2 e3
        subst e1 e2 e3
        exact .inl (ho ▸ hc)
      · exact .inr ⟨r, m', p', t', ho, hin, near_of_key hn hn' h2 h1, steps_close 6 _ _ h3, steps_close 6 _ _ h4, hc⟩
    · cases hk

theorem answerPh_of (B : Backend σ) (A : List Op) (m : FluidModel) (p t : ℚ) (g : Option ℚ) (o : Except FErr Result)
    (h : (∃ o', CompIn B anyModel m (fun ref => B.solve ref p t g) o' ∧ o = checked t o') ∨
      ∃ r c, o = .ok r ∧ m.composition.normalized = .ok c ∧
      FlashEntry B (.ph m p t g :: A) (.ph (compositionKey c) m.eos (steps 6 p) (steps 6 t)) r) :
    AnswerPh B A m p t g o := by
  rcases h with ⟨o', h, h'⟩ | ⟨r, c, ho, hn, h⟩
  · exact .inl ⟨o', (compIn_any _ _ _ _).1 h, h'⟩
  · rcases h with ⟨_, _, _, _, _, _, hk, _⟩ | ⟨m', p', t', g', c', hin, hn', hk, hc⟩
    · cases hk
    · injection hk with h1 h2 h3 h4
      rcases List.mem_cons.1 hin with heq | hin
      · injection heq with e1 e2 e3 e4
        subst e1 e2 e3 e4
        obtain ⟨o', h5, h6⟩ := hc
        exact .inl ⟨o', h5, ho ▸ h6⟩
      · exact .inr ⟨r, m', p', t', g', ho, hin, near_of_key hn hn' h2 h1, steps_close 6 _ _ h3, steps_close 6 _ _ h4,
          hc⟩

theorem flashEntry_mono (B : Backend σ) {A A' : List Op} (hA : ∀ op ∈ A, op ∈ A') {k : Key} {r : Result}
    (h : FlashEntry B A k r) : FlashEntry B A' k r := by
  rcases h with ⟨m, p, t, c, h, h'⟩ | ⟨m, p, t, g, c, h, h'⟩
  · exact .inl ⟨m, p, t, c, hA _ h, h'⟩
  · exact .inr ⟨m, p, t, g, c, hA _ h, h'⟩

theorem holds_mono (B : Backend σ) {A A' : List Op} (hA : ∀ op ∈ A, op ∈ A') {s : Svc σ}
    (h : Holds PR (FlashEntry B A) s) : Holds PR (FlashEntry B A') s :=
  ⟨h.refSize, h.flashSize, h.refs, fun e he => flashEntry_mono B hA (h.flashes e he)⟩

theorem pt_any (B : Backend σ) (A : List Op) (m : FluidModel) (p t : ℚ) :
    Tri (Holds (RefEntry B anyModel) (FlashEntry B (.pt m p t :: A))) (flashPt B m p t) (AnswerPt B A m p t) := by
  refine tri_weaken (tri_flashPt B anyModel m trivial p t ?_) (answerPt_of B A m p t)
  exact fun c r hn hc => .inl ⟨m, p, t, c, List.mem_cons_self, hn, rfl, (compIn_any _ _ _ _).1 hc⟩

theorem ph_any (B : Backend σ) (A : List Op) (m : FluidModel) (p h : ℚ) (g : Option ℚ) :
    Tri (Holds (RefEntry B anyModel) (FlashEntry B (.ph m p h g :: A))) (flashPh B m p h g) (AnswerPh B A m p h g) := by
  refine tri_weaken (tri_flashPh B anyModel m trivial p h g ?_) (answerPh_of B A m p h g)
  exact fun c r o hn hc ho => .inr ⟨m, p, h, g, c, List.mem_cons_self, hn, rfl, o, (compIn_any _ _ _ _).1 hc, ho⟩

/-- Removing liquid, whatever is done with the outcome. -/
theorem tri_liquid (B : Backend σ) (S : FluidModel → Prop) (m : FluidModel) (hm : S m) (props : Result)
    (hg : ∀ p t ref f g c, props.pressure = some p → props.temperature = some t → RefIn B S m (.ok ref) →
      B.tp ref p t = .ok f → B.gas f = .ok g → fromNeqsim (B.components g) = .ok c → S ⟨m.eos, c⟩) :
    Tri (Holds (RefEntry B S) PF) (removeLiquid B m props) (fun o =>
      (allVapor props.vapor = true ∧ o = .ok (m, props)) ∨
      (allVapor props.vapor = false ∧ ∃ p t, props.pressure = some p ∧ props.temperature = some t ∧ GasIn B S m p t o) ∨
      (allVapor props.vapor = false ∧ (props.pressure = none ∨ props.temperature = none) ∧
        ∃ ref, RefIn B S m ref ∧ o = (do let _ ← ref; .error (.thermo .thermo)))) := by
  unfold Flash.removeLiquid
  by_cases hv : allVapor props.vapor = true
  · rw [if_pos hv]
    exact tri_pure _ (.inl ⟨hv, rfl⟩)
  · rw [if_neg hv]
    have hv' : allVapor props.vapor = false := by simpa using hv
    have fails : (props.pressure = none ∨ props.temperature = none) →
        Tri (Holds (RefEntry B S) PF) (do let _ ← reference B m; lift (.error .thermo) : M σ (FluidModel × Result))
          (fun o => ∃ ref, RefIn B S m ref ∧ o = (do let _ ← ref; .error (.thermo .thermo))) := by
      intro _
      refine tri_bind (tri_reference B S m hm) (fun ref href => ?_) (fun e he => ⟨_, he, rfl⟩)
      exact tri_weaken (tri_lift _) (fun o ho => ⟨_, href, ho⟩)
    cases hp : props.pressure with
    | none => exact tri_weaken (fails (.inl hp)) (fun o ho => .inr (.inr ⟨hv', .inl rfl, ho⟩))
    | some p =>
      cases ht : props.temperature with
      | none => exact tri_weaken (fails (.inr ht)) (fun o ho => .inr (.inr ⟨hv', .inr rfl, ho⟩))
      | some t =>
        exact tri_weaken (tri_gasPart B S m hm p t (fun ref f g c => hg p t ref f g c hp ht))
          (fun o ho => .inr (.inl ⟨hv', p, t, rfl, rfl, ho⟩))

theorem since_append (acc ops : List Op) (op : Op) :
    since acc (ops ++ [op]) = match op with | .clear => [] | op => op :: since acc ops := by
  induction ops generalizing acc with
  | nil => cases op <;> rfl
  | cons a ops ih => cases a <;> exact ih _

theorem after_append (B : Backend σ) (nr nf : ℤ) (ops : List Op) (op : Op) :
    after B nr nf (ops ++ [op]) = step B (after B nr nf ops) op := by
  unfold after; rw [List.foldl_append]; rfl

theorem inv_after (B : Backend σ) (nr nf : ℤ) (hr : 0 ≤ nr) (hf : 0 ≤ nf) (ops : List Op) :
    Holds (RefEntry B anyModel) (FlashEntry B (since [] ops)) (after B nr nf ops) := by
  induction ops using List.reverseRecOn with
  | nil => exact ⟨hr, hf, by simp [after, LRU.new], by simp [after, LRU.new]⟩
  | append_singleton ops op ih =>
    rw [after_append, since_append]
    have mono : ∀ op, Holds (RefEntry B anyModel) (FlashEntry B (op :: since [] ops)) (after B nr nf ops) :=
      fun op => holds_mono B (fun _ h => List.mem_cons_of_mem _ h) ih
    cases op with
    | pt m p t => exact (pt_any B _ m p t _ (mono _)).1
    | ph m p h g => exact (ph_any B _ m p h g _ (mono _)).1
    | liquid m r => exact (tri_liquid B anyModel m trivial r (fun _ _ _ _ _ _ _ _ _ _ _ _ => trivial) _ (mono _)).1
    | density m => exact (tri_density B anyModel m trivial _ (mono _)).1
    | clear => exact ⟨ih.refSize, ih.flashSize, by simp [step, clearAll, LRU.clear], by simp [step, clearAll, LRU.clear]⟩

/-! ## Requests that are far apart -/

/-- The models `S` and requests `R` of a run are far enough apart for the rounding of the keys: two models whose
fractions differ by at most 1e-8 have the same fractions, and two requests with pressures and temperatures (or
enthalpies) that differ by at most 1e-6 are the same request. `S` has the models of all requests and of the gas of all
fluids whose liquid is removed. -/
structure Apart (B : Backend σ) (S : FluidModel → Prop) (R : Op → Prop) : Prop where
  models : ∀ m m', S m → S m' → Near m m' → Same m m'
  pt : ∀ m p t m' p' t', R (.pt m p t) → R (.pt m' p' t') → Near m m' → Close p p' → Close t t' → p = p' ∧ t = t'
  ph : ∀ m p h g m' p' h' g', R (.ph m p h g) → R (.ph m' p' h' g') → Near m m' → Close p p' → Close h h' →
    p = p' ∧ h = h' ∧ g = g'
  ofPt : ∀ m p t, R (.pt m p t) → S m
  ofPh : ∀ m p h g, R (.ph m p h g) → S m
  ofDensity : ∀ m, R (.density m) → S m
  ofLiquid : ∀ m r, R (.liquid m r) → S m
  ofGas : ∀ m r p t x, R (.liquid m r) → r.pressure = some p → r.temperature = some t →
    plainGasSystem B m p t = .ok x → S x.2

theorem plainRef_same (B : Backend σ) {m m' : FluidModel} (h : Same m m') : plainRef B m = plainRef B m' := by
  unfold plainRef
  rw [h.1, h.2]

theorem mass_same {m m' : FluidModel} (h : Same m m') : molarMass m.composition = molarMass m'.composition := by
  unfold molarMass
  rw [h.2]

theorem outcome_same (B : Backend σ) {m m' : FluidModel} (h : Same m m') (ref : Except FErr σ)
    (std : Except FErr (Option ℚ)) (f : σ → Except PErr σ) : outcome B m ref std f = outcome B m' ref std f := by
  unfold outcome
  rw [mass_same h]

theorem refIn_exact {B : Backend σ} {S : FluidModel → Prop} {R : Op → Prop} (hA : Apart B S R) {m : FluidModel}
    (hm : S m) {o : Except FErr σ} (h : RefIn B S m o) : o = plainRef B m := by
  rcases h with h | ⟨m', hs, hn, ho⟩
  · exact h
  · rw [ho, plainRef_same B (hA.models m m' hm hs hn)]

theorem compIn_exact {B : Backend σ} {S : FluidModel → Prop} {R : Op → Prop} (hA : Apart B S R) {m : FluidModel}
    (hm : S m) {f : σ → Except PErr σ} {o : Except FErr Result} (h : CompIn B S m f o) :
    o = outcome B m (plainRef B m) (densityOf B (plainRef B m)) f := by
  obtain ⟨ref, ref', h1, h2, h3⟩ := h
  rw [h3, refIn_exact hA hm h1, refIn_exact hA hm h2]

/-- The plain result of a request among `R` under each key of the second cache. -/
def PlainEntry (B : Backend σ) (R : Op → Prop) (k : Key) (r : Result) : Prop :=
  (∃ m p t c, R (.pt m p t) ∧ m.composition.normalized = .ok c ∧
    k = .tp (compositionKey c) m.eos (steps 6 p) (steps 6 t) ∧ plainPt B m p t = .ok r) ∨
  (∃ m p h g c, R (.ph m p h g) ∧ m.composition.normalized = .ok c ∧
    k = .ph (compositionKey c) m.eos (steps 6 p) (steps 6 h) ∧ plainPh B m p h g = .ok r)

theorem exact_pt {B : Backend σ} {S : FluidModel → Prop} {R : Op → Prop} (hA : Apart B S R) {m : FluidModel} {p t : ℚ}
    (hr : R (.pt m p t)) : Tri (Holds (RefEntry B S) (PlainEntry B R)) (flashPt B m p t) (· = plainPt B m p t) := by
  have hm := hA.ofPt m p t hr
  refine tri_weaken (tri_flashPt B S m hm p t ?_) ?_
  · exact fun c r hn hc => .inl ⟨m, p, t, c, hr, hn, rfl, (compIn_exact hA hm hc).symm⟩
  · rintro o (h | ⟨r, c, ho, hn, h⟩)
    · exact compIn_exact hA hm h
    · rcases h with ⟨m', p', t', c', hin, hn', hk, hc⟩ | ⟨_, _, _, _, _, _, _, hk, _⟩
      · injection hk with h1 h2 h3 h4
        have hnear := near_of_key hn hn' h2 h1
        obtain ⟨rfl, rfl⟩ := hA.pt _ _ _ _ _ _ hr hin hnear (steps_close 6 _ _ h3) (steps_close 6 _ _ h4)
        have hsame := hA.models m m' hm (hA.ofPt _ _ _ hin) hnear
        rw [ho, ← hc]
        unfold plainPt
        rw [plainRef_same B hsame, outcome_same B hsame]
      · cases hk

theorem exact_ph {B : Backend σ} {S : FluidModel → Prop} {R : Op → Prop} (hA : Apart B S R) {m : FluidModel} {p t : ℚ}
    {g : Option ℚ} (hr : R (.ph m p t g)) :
    Tri (Holds (RefEntry B S) (PlainEntry B R)) (flashPh B m p t g) (· = plainPh B m p t g) := by
  have hm := hA.ofPh m p t g hr
  refine tri_weaken (tri_flashPh B S m hm p t g ?_) ?_
  · exact fun c r o hn hc ho => .inr ⟨m, p, t, g, c, hr, hn, rfl, by rw [ho, compIn_exact hA hm hc]; rfl⟩
  · rintro o (⟨o', h, ho⟩ | ⟨r, c, ho, hn, h⟩)
    · rw [ho, compIn_exact hA hm h]; rfl
    · rcases h with ⟨_, _, _, _, _, _, hk, _⟩ | ⟨m', p', t', g', c', hin, hn', hk, hc⟩
      · cases hk
      · injection hk with h1 h2 h3 h4
        have hnear := near_of_key hn hn' h2 h1
        obtain ⟨rfl, rfl, rfl⟩ := hA.ph _ _ _ _ _ _ _ _ hr hin hnear (steps_close 6 _ _ h3) (steps_close 6 _ _ h4)
        have hsame := hA.models m m' hm (hA.ofPh _ _ _ _ hin) hnear
        rw [ho, ← hc]
        unfold plainPh
        rw [plainRef_same B hsame, outcome_same B hsame]

theorem exact_density {B : Backend σ} {S : FluidModel → Prop} {R : Op → Prop} (hA : Apart B S R) {m : FluidModel}
    (hr : R (.density m)) :
    Tri (Holds (RefEntry B S) (PlainEntry B R)) (standardDensity B m) (· = densityOf B (plainRef B m)) := by
  have hm := hA.ofDensity m hr
  refine tri_weaken (tri_density B S m hm) ?_
  rintro o ⟨ref, h, ho⟩
  rw [ho, refIn_exact hA hm h]

theorem exact_liquid {B : Backend σ} {S : FluidModel → Prop} {R : Op → Prop} (hA : Apart B S R) {m : FluidModel}
    {props : Result} (hr : R (.liquid m props)) :
    Tri (Holds (RefEntry B S) (PlainEntry B R)) (Flash.removeLiquid B m props) (· = plainLiquid B m props) := by
  have hm := hA.ofLiquid m _ hr
  refine tri_weaken (tri_liquid B S m hm props ?_) ?_
  · intro p t ref f g c hp ht href hf hg hc
    have h := refIn_exact hA hm href
    refine hA.ofGas m props p t (g, ⟨m.eos, c⟩) hr hp ht ?_
    simp only [plainGasSystem, ← h, Bind.bind, Except.bind, hf, up, hg, hc]
    rfl
  · rintro o (⟨hv, ho⟩ | ⟨hv, p, t, hp, ht, ref, href, read, hread, ho⟩ | ⟨hv, hn, ref, href, ho⟩)
    · unfold plainLiquid; rw [if_pos hv, ho]; rfl
    · unfold plainLiquid
      rw [if_neg (by simp [hv]), ho, refIn_exact hA hm href]
      simp only [hp, ht]
      cases h1 : plainRef B m with
      | error e => simp [plainGasSystem, h1, Bind.bind, Except.bind]
      | ok ref =>
        cases h2 : B.tp ref p t with
        | error e => simp [plainGasSystem, h1, h2, up, Bind.bind, Except.bind]
        | ok f =>
          cases h3 : B.gas f with
          | error e => simp [plainGasSystem, h1, h2, h3, up, Bind.bind, Except.bind]
          | ok g =>
            cases h4 : fromNeqsim (B.components g) with
            | error e => simp [plainGasSystem, h1, h2, h3, h4, up, Bind.bind, Except.bind]
            | ok c =>
              have hsys : plainGasSystem B m p t = .ok (g, ⟨m.eos, c⟩) := by
                simp [plainGasSystem, h1, h2, h3, h4, up, Bind.bind, Except.bind, pure, Except.pure]
              have hS := hA.ofGas m props p t _ hr hp ht hsys
              obtain ⟨ref', h5, h6⟩ := hread g _ hS
              have h7 : read g ⟨m.eos, c⟩ = plainRead B g ⟨m.eos, c⟩ := by
                rw [h6, refIn_exact hA hS h5]; rfl
              simp only [hsys, h2, h3, h4, up, Bind.bind, Except.bind]
              rw [h7]
    · unfold plainLiquid
      rw [if_neg (by simp [hv]), ho, refIn_exact hA hm href]
      rcases hn with hn | hn
      · simp only [hn]; rfl
      · cases hp : props.pressure <;> simp only [hn] <;> rfl

theorem exact_after {B : Backend σ} {S : FluidModel → Prop} {R : Op → Prop} (hA : Apart B S R) (nr nf : ℤ)
    (hr : 0 ≤ nr) (hf : 0 ≤ nf) (ops : List Op) (hops : ∀ op ∈ ops, R op) :
    Holds (RefEntry B S) (PlainEntry B R) (after B nr nf ops) := by
  induction ops using List.reverseRecOn with
  | nil => exact ⟨hr, hf, by simp [after, LRU.new], by simp [after, LRU.new]⟩
  | append_singleton ops op ih =>
    rw [after_append]
    have ih := ih (fun op h => hops op (List.mem_append_left _ h))
    have hop := hops op (by simp)
    cases op with
    | pt m p t => exact (exact_pt hA hop _ ih).1
    | ph m p h g => exact (exact_ph hA hop _ ih).1
    | liquid m r => exact (exact_liquid hA hop _ ih).1
    | density m => exact (exact_density hA hop _ ih).1
    | clear => exact ⟨ih.refSize, ih.flashSize, by simp [step, clearAll, LRU.clear], by simp [step, clearAll, LRU.clear]⟩

/-! ## Caches that stay empty -/

/-- A property of the caches that no access to them changes. -/
structure Closed (I : Svc σ → Prop) : Prop where
  getRef : ∀ k s, I s → I (getRef k s).1
  putRef : ∀ k v s, I s → I (putRef k v s).1
  getFlash : ∀ k s, I s → I (getFlash k s).1
  putFlash : ∀ k v s, I s → I (putFlash k v s).1
  clear : ∀ s, I s → I (clearAll s).1

/-- Nothing is said about what comes out. -/
abbrev Any : Except FErr α → Prop := fun _ => True

theorem keep_bind {I : Svc σ → Prop} {x : M σ α} {f : α → M σ β} (hx : Tri I x Any) (hf : ∀ a, Tri I (f a) Any) :
    Tri I (x >>= f) Any := tri_bind hx (fun a _ => hf a) (fun _ _ => trivial)

theorem keep_pure {I : Svc σ → Prop} (a : α) : Tri I (pure a : M σ α) Any := tri_pure a trivial

theorem keep_lift {I : Svc σ → Prop} (x : Except PErr α) : Tri I (lift x : M σ α) Any :=
  tri_weaken (tri_lift x) (fun _ _ => trivial)

theorem keep_reference {I : Svc σ → Prop} (hI : Closed I) (B : Backend σ) (m : FluidModel) :
    Tri I (reference B m) Any := by
  refine keep_bind (keep_lift _) fun c => keep_bind (fun s hs => ⟨hI.getRef _ s hs, trivial⟩) fun x => ?_
  cases x with
  | some r => exact keep_pure _
  | none =>
    exact keep_bind (keep_lift _) fun r => keep_bind (fun s hs => ⟨hI.putRef _ _ s hs, trivial⟩) fun _ => keep_pure _

theorem keep_density {I : Svc σ → Prop} (hI : Closed I) (B : Backend σ) (m : FluidModel) :
    Tri I (standardDensity B m) Any := keep_bind (keep_reference hI B m) fun _ => keep_lift _

theorem keep_extract {I : Svc σ → Prop} (hI : Closed I) (B : Backend σ) (f : σ) (m : FluidModel) :
    Tri I (extract B f m) Any := keep_bind (keep_lift _) fun _ => keep_bind (keep_density hI B m) fun _ => keep_pure _

theorem keep_pt {I : Svc σ → Prop} (hI : Closed I) (B : Backend σ) (m : FluidModel) (p t : ℚ) :
    Tri I (flashPt B m p t) Any := by
  refine keep_bind (keep_lift _) fun c => keep_bind (fun s hs => ⟨hI.getFlash _ s hs, trivial⟩) fun x => ?_
  cases x with
  | some r => exact keep_pure _
  | none =>
    exact keep_bind (keep_reference hI B m) fun _ => keep_bind (keep_lift _) fun _ =>
      keep_bind (keep_extract hI B _ m) fun _ => keep_bind (fun s hs => ⟨hI.putFlash _ _ s hs, trivial⟩) fun _ =>
      keep_pure _

theorem keep_ph {I : Svc σ → Prop} (hI : Closed I) (B : Backend σ) (m : FluidModel) (p h : ℚ) (g : Option ℚ) :
    Tri I (flashPh B m p h g) Any := by
  refine keep_bind (keep_lift _) fun c => keep_bind (fun s hs => ⟨hI.getFlash _ s hs, trivial⟩) fun x => ?_
  cases x with
  | some r => exact keep_pure _
  | none =>
    exact keep_bind (keep_reference hI B m) fun _ => keep_bind (keep_lift _) fun _ =>
      keep_bind (keep_extract hI B _ m) fun _ => keep_bind (fun s hs => ⟨hs, trivial⟩) fun _ =>
      keep_bind (fun s hs => ⟨hI.putFlash _ _ s hs, trivial⟩) fun _ => keep_pure _

theorem keep_liquid {I : Svc σ → Prop} (hI : Closed I) (B : Backend σ) (m : FluidModel) (r : Result) :
    Tri I (Flash.removeLiquid B m r) Any := by
  unfold Flash.removeLiquid
  split
  · exact keep_pure _
  · split
    · exact keep_bind (keep_reference hI B m) fun _ => keep_bind (keep_lift _) fun _ => keep_bind (keep_lift _) fun _ =>
        keep_bind (keep_lift _) fun _ => keep_bind (keep_extract hI B _ _) fun _ => keep_pure _
    · exact keep_bind (keep_reference hI B m) fun _ => keep_lift _

theorem keep_step {I : Svc σ → Prop} (hI : Closed I) (B : Backend σ) (op : Op) (s : Svc σ) (hs : I s) :
    I (step B s op) := by
  cases op with
  | pt m p t => exact (keep_pt hI B m p t s hs).1
  | ph m p h g => exact (keep_ph hI B m p h g s hs).1
  | liquid m r => exact (keep_liquid hI B m r s hs).1
  | density m => exact (keep_density hI B m s hs).1
  | clear => exact hI.clear s hs

theorem keep_after {I : Svc σ → Prop} (hI : Closed I) (B : Backend σ) (nr nf : ℤ) (ops : List Op)
    (h0 : I ⟨LRU.new nr, LRU.new nf⟩) : I (after B nr nf ops) := by
  induction ops using List.reverseRecOn with
  | nil => exact h0
  | append_singleton ops op ih => rw [after_append]; exact keep_step hI B op _ ih

section empty
variable {κ ν : Type} [DecidableEq κ]

theorem get_empty (c : LRU κ ν) (k : κ) (h : c.entries = []) : (c.get k).1.entries = [] := by
  unfold LRU.get; simp [h]

theorem put_empty (c : LRU κ ν) (k : κ) (v : ν) (h : c.entries = []) (hn : c.maxSize ≤ 0) :
    (c.put k v).1.entries = [] := by
  unfold LRU.put
  split
  · exact h
  · have h1 : (1 : ℤ) > c.maxSize := by omega
    simp [h, dictSet, evict, h1]

theorem put_negative (c : LRU κ ν) (k : κ) (v : ν) (h : c.entries = []) (hn : c.maxSize < 0) :
    (c.put k v).2 = .error .keyError := by
  have h0 : ¬ c.maxSize = 0 := by omega
  have h1 : (1 : ℤ) > c.maxSize := by omega
  unfold LRU.put
  rw [if_neg h0]
  simp [h, dictSet, evict, h1, hn]

end empty

/-- Both caches disabled, and so empty. -/
def Disabled (s : Svc σ) : Prop :=
  s.refs.maxSize = 0 ∧ s.flashes.maxSize = 0 ∧ s.refs.entries = [] ∧ s.flashes.entries = []

theorem disabled_closed : Closed (Disabled (σ := σ)) where
  getRef k s h := ⟨by simpa [getRef, get_size] using h.1, h.2.1, get_empty _ _ h.2.2.1, h.2.2.2⟩
  putRef k v s h := ⟨by simpa [putRef, put_size] using h.1, h.2.1, put_empty _ _ _ h.2.2.1 (le_of_eq h.1), h.2.2.2⟩
  getFlash k s h := ⟨h.1, by simpa [getFlash, get_size] using h.2.1, h.2.2.1, get_empty _ _ h.2.2.2⟩
  putFlash k v s h := ⟨h.1, by simpa [putFlash, put_size] using h.2.1, h.2.2.1,
    put_empty _ _ _ h.2.2.2 (le_of_eq h.2.1)⟩
  clear s h := ⟨h.1, h.2.1, rfl, rfl⟩

/-- A second cache of negative size. -/
def NegFlashes (s : Svc σ) : Prop := s.flashes.maxSize < 0 ∧ s.flashes.entries = []

theorem negFlashes_closed : Closed (NegFlashes (σ := σ)) where
  getFlash k s h := ⟨by simpa [getFlash, get_size] using h.1, get_empty _ _ h.2⟩
  putFlash k v s h := ⟨by simpa [putFlash, put_size] using h.1, put_empty _ _ _ h.2 (le_of_lt h.1)⟩
  getRef k s h := h
  putRef k v s h := h
  clear s h := ⟨h.1, rfl⟩

/-- It does not succeed. -/
abbrev Fails : Except FErr α → Prop := fun o => ∀ a, o ≠ .ok a

theorem fails_first {I : Svc σ → Prop} {x : M σ α} {f : α → M σ β} (hx : Tri I x Fails) : Tri I (x >>= f) Fails :=
  tri_bind hx (fun a h => absurd rfl (h a)) (fun e _ a h => by cases h)

theorem fails_later {I : Svc σ → Prop} {x : M σ α} {f : α → M σ β} (hx : Tri I x Any) (hf : ∀ a, Tri I (f a) Fails) :
    Tri I (x >>= f) Fails := tri_bind hx (fun a _ => hf a) (fun e _ a h => by cases h)

/-- A first cache of negative size, and nothing in the second one. -/
def NegRefs (s : Svc σ) : Prop := s.refs.maxSize < 0 ∧ s.refs.entries = [] ∧ s.flashes.entries = []

theorem fails_reference (B : Backend σ) (m : FluidModel) : Tri NegRefs (reference B m) Fails := by
  refine fails_later (keep_lift _) fun c => ?_
  have hget : Tri NegRefs (getRef (compositionKey c, m.eos) : M σ (Option σ)) (· = .ok none) := fun s hs =>
    ⟨⟨by simpa [getRef, get_size] using hs.1, get_empty _ _ hs.2.1, hs.2.2⟩, by simp [getRef, get_value, hs.2.1]⟩
  refine tri_bind hget (fun x hx => ?_) (fun e he => by cases he)
  cases Except.ok.inj hx
  refine fails_later (keep_lift _) fun r => fails_first fun s hs =>
    ⟨⟨by simpa [putRef, put_size] using hs.1, put_empty _ _ _ hs.2.1 (le_of_lt hs.1), hs.2.2⟩, fun a h => ?_⟩
  simp only [putRef, put_negative _ _ _ hs.2.1 hs.1] at h
  cases h

theorem miss_refs (k : Key) : Tri NegRefs (getFlash k : M σ (Option Result)) (· = .ok none) := fun s hs =>
  ⟨⟨hs.1, hs.2.1, get_empty _ _ hs.2.2⟩, by simp [getFlash, get_value, hs.2.2]⟩

theorem fails_pt (B : Backend σ) (m : FluidModel) (p t : ℚ) : Tri NegRefs (flashPt B m p t) Fails := by
  refine fails_later (keep_lift _) fun c => tri_bind (miss_refs _) (fun x hx => ?_) (fun e he => by cases he)
  cases Except.ok.inj hx
  exact fails_first (fails_reference B m)

theorem fails_ph (B : Backend σ) (m : FluidModel) (p h : ℚ) (g : Option ℚ) :
    Tri NegRefs (flashPh B m p h g) Fails := by
  refine fails_later (keep_lift _) fun c => tri_bind (miss_refs _) (fun x hx => ?_) (fun e he => by cases he)
  cases Except.ok.inj hx
  exact fails_first (fails_reference B m)

theorem negRefs_after (B : Backend σ) (nr nf : ℤ) (hn : nr < 0) (ops : List Op) : NegRefs (after B nr nf ops) := by
  induction ops using List.reverseRecOn with
  | nil => exact ⟨hn, rfl, rfl⟩
  | append_singleton ops op ih =>
    rw [after_append]
    have any : ∀ {γ δ : Type} {x : M σ γ} {f : γ → M σ δ}, Tri NegRefs x Fails → Tri NegRefs (x >>= f) Any :=
      fun h => tri_weaken (fails_first h) (fun _ _ => trivial)
    cases op with
    | pt m p t => exact (fails_pt B m p t _ ih).1
    | ph m p h g => exact (fails_ph B m p h g _ ih).1
    | liquid m r =>
      have : Tri NegRefs (Flash.removeLiquid B m r) Any := by
        unfold Flash.removeLiquid
        split
        · exact keep_pure _
        · split
          · exact any (fails_reference B m)
          · exact any (fails_reference B m)
      exact (this _ ih).1
    | density m => exact (any (fails_reference B m) _ ih).1
    | clear => exact ⟨ih.1, rfl, rfl⟩

theorem fails_put (k : Key) (r : Result) : Tri NegFlashes (putFlash k r : M σ Unit) Fails := by
  intro s hs
  refine ⟨negFlashes_closed.putFlash _ _ s hs, fun a h => ?_⟩
  simp only [putFlash, put_negative _ _ _ hs.2 hs.1] at h
  cases h

theorem miss (k : Key) : Tri NegFlashes (getFlash k : M σ (Option Result)) (· = .ok none) := fun s hs =>
  ⟨negFlashes_closed.getFlash _ s hs, by simp [getFlash, get_value, hs.2]⟩

/-- A single request, and the models it may ask the reference fluid of. -/
theorem apart_pt (B : Backend σ) (m : FluidModel) (p t : ℚ) : Apart B (· = m) (· = .pt m p t) where
  models := by rintro _ _ rfl rfl _; exact ⟨rfl, rfl⟩
  pt := by
    intro _ _ _ _ _ _ h1 h2 _ _ _
    cases h1; cases h2; exact ⟨rfl, rfl⟩
  ph := by intro _ _ _ _ _ _ _ _ h; cases h
  ofPt := by intro _ _ _ h; cases h; rfl
  ofPh := by intro _ _ _ _ h; cases h
  ofDensity := by intro _ h; cases h
  ofLiquid := by intro _ _ h; cases h
  ofGas := by intro _ _ _ _ _ h; cases h

theorem apart_ph (B : Backend σ) (m : FluidModel) (p t : ℚ) (g : Option ℚ) : Apart B (· = m) (· = .ph m p t g) where
  models := by rintro _ _ rfl rfl _; exact ⟨rfl, rfl⟩
  pt := by intro _ _ _ _ _ _ h; cases h
  ph := by
    intro _ _ _ _ _ _ _ _ h1 h2 _ _ _
    cases h1; cases h2; exact ⟨rfl, rfl, rfl⟩
  ofPt := by intro _ _ _ h; cases h
  ofPh := by intro _ _ _ _ h; cases h; rfl
  ofDensity := by intro _ h; cases h
  ofLiquid := by intro _ _ h; cases h
  ofGas := by intro _ _ _ _ _ h; cases h

theorem empty_holds (PR : RefKey → σ → Prop) (PF : Key → Result → Prop) (s : Svc σ) (hr : 0 ≤ s.refs.maxSize)
    (hf : 0 ≤ s.flashes.maxSize) (h1 : s.refs.entries = []) (h2 : s.flashes.entries = []) : Holds PR PF s :=
  ⟨hr, hf, by simp [h1], by simp [h2]⟩

/-! ## The theorems -/

/-- **C106.** Whatever was asked before, the answer to a flash to pressure and temperature is what NeqSim gives for this
request, or for one made since the caches were cleared whose pressure and temperature differ by at most 1e-6 and whose
fractions differ by at most 1e-8, from reference fluids of models with fractions within 1e-8. An error is always one of
this request. -/
theorem C106_answer_pt (B : Backend σ) (nr nf : ℤ) (hr : 0 ≤ nr) (hf : 0 ≤ nf) (ops : List Op) (m : FluidModel)
    (p t : ℚ) : AnswerPt B (since [] ops) m p t (flashPt B m p t (after B nr nf ops)).2 :=
  (pt_any B _ m p t _ (holds_mono B (fun _ h => List.mem_cons_of_mem _ h) (inv_after B nr nf hr hf ops))).2

/-- **C106.** The same for a flash to pressure and enthalpy, which never gets the result of a flash to pressure and
temperature. -/
theorem C106_answer_ph (B : Backend σ) (nr nf : ℤ) (hr : 0 ≤ nr) (hf : 0 ≤ nf) (ops : List Op) (m : FluidModel)
    (p h : ℚ) (g : Option ℚ) : AnswerPh B (since [] ops) m p h g (flashPh B m p h g (after B nr nf ops)).2 :=
  (ph_any B _ m p h g _ (holds_mono B (fun _ h => List.mem_cons_of_mem _ h) (inv_after B nr nf hr hf ops))).2

theorem checked_ok {h : ℚ} {o : Except FErr Result} {r : Result} (hc : .ok r = checked h o) : accepted r h = true := by
  unfold checked at hc
  cases o with
  | error e => simp [Bind.bind, Except.bind] at hc
  | ok r' =>
    simp only [Bind.bind, Except.bind] at hc
    split at hc
    · rename_i ha
      have := Except.ok.inj hc
      rw [this]; exact ha
    · cases hc

theorem positive_iff (x : Option ℚ) : positive x = true ↔ ∃ v, x = some v ∧ 0 < v := by
  cases x <;> simp [positive]

theorem accepted_iff (r : Result) (h : ℚ) : accepted r h = true ↔
    (∃ v, r.pressure = some v ∧ 0 < v) ∧ (∃ v, r.temperature = some v ∧ 0 < v) ∧ (∃ v, r.density = some v ∧ 0 < v) ∧
    (∃ v, r.z = some v ∧ 0 < v) ∧ (∃ v, r.kappa = some v ∧ 0 < v) ∧ (∃ v, r.stdDensity = some v ∧ 0 < v) ∧
    (∃ v, r.vapor = some v ∧ -(1 / 10 ^ 5) ≤ v ∧ v ≤ 1 + 1 / 10 ^ 5) ∧
    ∃ v, r.enthalpy = some v ∧ |v - h| ≤ max 10 (|h| * (1 / 10 ^ 4)) := by
  unfold accepted
  simp only [Bool.and_eq_true, positive_iff]
  constructor
  · rintro ⟨⟨⟨⟨⟨⟨⟨h1, h2⟩, h3⟩, h4⟩, h5⟩, h6⟩, h7⟩, h8⟩
    refine ⟨h1, h2, h3, h4, h5, h6, ?_, ?_⟩
    · cases hv : r.vapor with
      | none => simp [hv] at h7
      | some v => rw [hv] at h7; simp only [Bool.and_eq_true, decide_eq_true_eq] at h7; exact ⟨v, rfl, h7⟩
    · cases hv : r.enthalpy with
      | none => simp [hv] at h8
      | some v => rw [hv] at h8; simp only [decide_eq_true_eq] at h8; exact ⟨v, rfl, h8⟩
  · rintro ⟨h1, h2, h3, h4, h5, h6, ⟨v, hv, h7⟩, ⟨w, hw, h8⟩⟩
    refine ⟨⟨⟨⟨⟨⟨⟨h1, h2⟩, h3⟩, h4⟩, h5⟩, h6⟩, ?_⟩, ?_⟩
    · rw [hv]; simpa using h7
    · rw [hw]; simpa using h8

/-- **C106.** Every result of a flash to pressure and enthalpy, cached or not, has finite positive pressure,
temperature, density, `z`, `kappa` and standard density, a vapour fraction between 0 and 1, and the enthalpy asked for
within 10 J/kg or 0.01 %, but for the 2e-6 J/kg the rounding of the key may cost. -/
theorem C106_enthalpy (B : Backend σ) (nr nf : ℤ) (hr : 0 ≤ nr) (hf : 0 ≤ nf) (ops : List Op) (m : FluidModel)
    (p h : ℚ) (g : Option ℚ) (r : Result) (hok : (flashPh B m p h g (after B nr nf ops)).2 = .ok r) :
    (∃ v, r.pressure = some v ∧ 0 < v) ∧ (∃ v, r.temperature = some v ∧ 0 < v) ∧ (∃ v, r.density = some v ∧ 0 < v) ∧
    (∃ v, r.z = some v ∧ 0 < v) ∧ (∃ v, r.kappa = some v ∧ 0 < v) ∧ (∃ v, r.stdDensity = some v ∧ 0 < v) ∧
    (∃ v, r.vapor = some v ∧ -(1 / 10 ^ 5) ≤ v ∧ v ≤ 1 + 1 / 10 ^ 5) ∧
    ∃ v, r.enthalpy = some v ∧ |v - h| ≤ max 10 (|h| * (1 / 10 ^ 4)) + 2 / 10 ^ 6 := by
  have key : ∃ h', Close h h' ∧ accepted r h' = true := by
    rcases C106_answer_ph B nr nf hr hf ops m p h g with ⟨o', -, ho⟩ | ⟨r', _, _, h', _, ho, -, -, -, hc, o', -, hr'⟩
    · rw [hok] at ho
      exact ⟨h, by simp [Close], checked_ok ho⟩
    · rw [hok] at ho
      cases Except.ok.inj ho
      exact ⟨h', hc, checked_ok hr'⟩
  obtain ⟨h', hc, ha⟩ := key
  rw [accepted_iff] at ha
  obtain ⟨h1, h2, h3, h4, h5, h6, h7, v, hv, h8⟩ := ha
  refine ⟨h1, h2, h3, h4, h5, h6, h7, v, hv, ?_⟩
  unfold Close at hc
  have e1 : |v - h| ≤ |v - h'| + |h' - h| := abs_sub_le _ _ _
  have e2 : |h'| ≤ |h| + |h' - h| := by
    have := abs_add_le h (h' - h)
    simpa using this
  rw [abs_sub_comm] at hc
  have e3 : max 10 (|h'| * (1 / 10 ^ 4)) ≤ max 10 (|h| * (1 / 10 ^ 4)) + 1 / 10 ^ 6 := by
    refine max_le ?_ ?_
    · have := le_max_left (10 : ℚ) (|h| * (1 / 10 ^ 4))
      linarith
    · have := le_max_right (10 : ℚ) (|h| * (1 / 10 ^ 4))
      nlinarith
  linarith

/-- **C106.** If the requests are far enough apart, the caches cannot be seen: the answer to every flash, result or
error, is that of the service without caches. -/
theorem C106_exact (B : Backend σ) (nr nf : ℤ) (hr : 0 ≤ nr) (hf : 0 ≤ nf) (S : FluidModel → Prop) (R : Op → Prop)
    (hA : Apart B S R) (ops : List Op) (hops : ∀ op ∈ ops, R op) :
    (∀ m p t, R (.pt m p t) → (flashPt B m p t (after B nr nf ops)).2 = plainPt B m p t) ∧
    (∀ m p h g, R (.ph m p h g) → (flashPh B m p h g (after B nr nf ops)).2 = plainPh B m p h g) ∧
    (∀ m, R (.density m) → (standardDensity B m (after B nr nf ops)).2 = densityOf B (plainRef B m)) ∧
    (∀ m r, R (.liquid m r) → (Flash.removeLiquid B m r (after B nr nf ops)).2 = plainLiquid B m r) := by
  have h := exact_after hA nr nf hr hf ops hops
  exact ⟨fun m p t hq => (exact_pt hA hq _ h).2, fun m p h' g hq => (exact_ph hA hq _ h).2,
    fun m hq => (exact_density hA hq _ h).2, fun m r hq => (exact_liquid hA hq _ h).2⟩

/-- **C106.** After the caches are cleared the next flash is computed anew, whatever was asked before. -/
theorem C106_cleared (B : Backend σ) (nr nf : ℤ) (hr : 0 ≤ nr) (hf : 0 ≤ nf) (ops : List Op) :
    (∀ m p t, (flashPt B m p t (after B nr nf (ops ++ [.clear]))).2 = plainPt B m p t) ∧
    (∀ m p h g, (flashPh B m p h g (after B nr nf (ops ++ [.clear]))).2 = plainPh B m p h g) := by
  have h := inv_after B nr nf hr hf ops
  rw [after_append]
  refine ⟨fun m p t => (exact_pt (apart_pt B m p t) rfl _ ?_).2, fun m p t g => (exact_ph (apart_ph B m p t g) rfl _ ?_).2⟩
  all_goals exact empty_holds _ _ _ h.refSize h.flashSize rfl rfl

/-- **C106.** With caches of size 0 every flash is computed anew. -/
theorem C106_disabled (B : Backend σ) (ops : List Op) :
    (∀ m p t, (flashPt B m p t (after B 0 0 ops)).2 = plainPt B m p t) ∧
    (∀ m p h g, (flashPh B m p h g (after B 0 0 ops)).2 = plainPh B m p h g) := by
  have h : Disabled (after B 0 0 ops) := keep_after disabled_closed B 0 0 ops ⟨rfl, rfl, rfl, rfl⟩
  refine ⟨fun m p t => (exact_pt (apart_pt B m p t) rfl _ ?_).2, fun m p t g => (exact_ph (apart_ph B m p t g) rfl _ ?_).2⟩
  all_goals exact empty_holds _ _ _ (le_of_eq h.1.symm) (le_of_eq h.2.1.symm) h.2.2.1 h.2.2.2

/-- **C106.** A negative size is accepted, and then no flash ever succeeds. -/
theorem C106_negative (B : Backend σ) (nr nf : ℤ) (hn : nr < 0 ∨ nf < 0) (ops : List Op) :
    (∀ m p t r, (flashPt B m p t (after B nr nf ops)).2 ≠ .ok r) ∧
    (∀ m p h g r, (flashPh B m p h g (after B nr nf ops)).2 ≠ .ok r) := by
  by_cases h : nr < 0
  · have hs := negRefs_after B nr nf h ops
    exact ⟨fun m p t => (fails_pt B m p t _ hs).2, fun m p h g => (fails_ph B m p h g _ hs).2⟩
  · have hs : NegFlashes (after B nr nf ops) :=
      keep_after negFlashes_closed B nr nf ops ⟨hn.resolve_left h, rfl⟩
    have hI := negFlashes_closed (σ := σ)
    refine ⟨fun m p t => ?_, fun m p h g => ?_⟩
    · have : Tri NegFlashes (flashPt B m p t) Fails := by
        refine fails_later (keep_lift _) fun c => tri_bind (miss _) (fun x hx => ?_) (fun e he => by cases he)
        cases Except.ok.inj hx
        exact fails_later (keep_reference hI B m) fun _ => fails_later (keep_lift _) fun _ =>
          fails_later (keep_extract hI B _ m) fun _ => fails_first (fails_put _ _)
      exact (this _ hs).2
    · have : Tri NegFlashes (flashPh B m p h g) Fails := by
        refine fails_later (keep_lift _) fun c => tri_bind (miss _) (fun x hx => ?_) (fun e he => by cases he)
        cases Except.ok.inj hx
        exact fails_later (keep_reference hI B m) fun _ => fails_later (keep_lift _) fun _ =>
          fails_later (keep_extract hI B _ m) fun _ => fails_later (fun s hs => ⟨hs, trivial⟩) fun _ =>
          fails_first (fails_put _ _)
      exact (this _ hs).2

/-- Everything depends on the equation of state and the normalised fractions only. -/
theorem same_reference (B : Backend σ) {m m' : FluidModel} (h : Same m m') : reference B m = reference B m' := by
  unfold reference
  rw [h.1, h.2]

theorem same_extract (B : Backend σ) (f : σ) {m m' : FluidModel} (h : Same m m') : extract B f m = extract B f m' := by
  unfold extract standardDensity
  rw [mass_same h, same_reference B h]

theorem same_pt (B : Backend σ) {m m' : FluidModel} (h : Same m m') (p t : ℚ) : flashPt B m p t = flashPt B m' p t := by
  unfold flashPt computePt
  simp only [h.1, h.2, same_reference B h, same_extract B _ h]

theorem same_ph (B : Backend σ) {m m' : FluidModel} (h : Same m m') (p e : ℚ) (g : Option ℚ) :
    flashPh B m p e g = flashPh B m' p e g := by
  unfold flashPh computePh
  simp only [h.1, h.2, same_reference B h, same_extract B _ h]

theorem norm_scale (c : Composition) (k : ℚ) (hk : 0 < k) :
    Composition.normalized (fun x => k * c x) = Composition.normalized c := by
  have ht : Composition.total (fun x => k * c x) = k * Composition.total c := by
    unfold Composition.total
    simp only [Component.all, List.map_cons, List.map_nil, List.sum_cons, List.sum_nil]
    ring
  unfold Composition.normalized
  rw [ht]
  by_cases h : c.total = 0
  · simp [h]
  · rw [if_neg (mul_ne_zero hk.ne' h), if_neg h]
    congr 1
    funext x
    field_simp

/-- **C106.** Only the proportions of a composition count: multiplying all fractions by a number changes neither the
answers nor the caches. -/
theorem C106_proportions (B : Backend σ) (m : FluidModel) (k : ℚ) (hk : 0 < k) (s : Svc σ) :
    (∀ p t, flashPt B ⟨m.eos, fun x => k * m.composition x⟩ p t s = flashPt B m p t s) ∧
    (∀ p h g, flashPh B ⟨m.eos, fun x => k * m.composition x⟩ p h g s = flashPh B m p h g s) := by
  have h : Same ⟨m.eos, fun x => k * m.composition x⟩ m := ⟨rfl, norm_scale _ k hk⟩
  exact ⟨fun p t => by rw [same_pt B h], fun p e g => by rw [same_ph B h]⟩


/-! ### Asking twice -/

section lookup
variable {κ ν : Type} [DecidableEq κ]

theorem lookup_none_of (k : κ) (l : List (κ × ν)) (h : ∀ e ∈ l, e.1 ≠ k) : l.lookup k = none := by
  induction l with
  | nil => rfl
  | cons a l ih =>
    rw [List.lookup_cons]
    have : (k == a.1) = false := by simpa using (h a List.mem_cons_self).symm
    rw [this]
    exact ih fun e he => h e (List.mem_cons_of_mem _ he)

theorem lookup_filter (k : κ) (l : List (κ × ν)) : (l.filter fun e => decide (e.1 = k)).lookup k = l.lookup k := by
  induction l with
  | nil => rfl
  | cons a l ih =>
    by_cases h : a.1 = k
    · rw [List.filter_cons_of_pos (by simpa using h), List.lookup_cons, List.lookup_cons]
      have : (k == a.1) = true := by simp [h]
      simp [this]
    · rw [List.filter_cons_of_neg (by simpa using h), List.lookup_cons, ih]
      have : (k == a.1) = false := by simpa using Ne.symm h
      simp [this]

theorem lookup_skip (k : κ) (a b : List (κ × ν)) (h : ∀ e ∈ a, e.1 ≠ k) : (a ++ b).lookup k = b.lookup k := by
  induction a with
  | nil => rfl
  | cons x a ih =>
    rw [List.cons_append, List.lookup_cons]
    have : (k == x.1) = false := by simpa using (h x List.mem_cons_self).symm
    rw [this]
    exact ih fun e he => h e (List.mem_cons_of_mem _ he)

theorem lookup_move (k : κ) (l : List (κ × ν)) : (moveToEnd k l).lookup k = l.lookup k := by
  unfold moveToEnd
  rw [lookup_skip _ _ _ (fun e he => by simpa using (List.mem_filter.1 he).2), lookup_filter]

theorem get_lookup (c : LRU κ ν) (k : κ) : (c.get k).1.entries.lookup k = c.entries.lookup k := by
  unfold LRU.get
  split
  · exact lookup_move k _
  · rfl

omit [DecidableEq κ] in
theorem evict_last (n : ℤ) (hn : 0 < n) (l : List (κ × ν)) (x : κ × ν) :
    ∃ l', (evict n (l ++ [x])).1 = l' ++ [x] ∧ ∀ e ∈ l', e ∈ l := by
  induction l with
  | nil =>
    refine ⟨[], ?_, by simp⟩
    simp only [List.nil_append, evict]
    rw [if_neg (by simp; omega)]
  | cons a l ih =>
    obtain ⟨l', h1, h2⟩ := ih
    rw [List.cons_append, evict]
    split
    · exact ⟨l', h1, fun e he => List.mem_cons_of_mem _ (h2 e he)⟩
    · exact ⟨a :: l, rfl, fun e he => he⟩

theorem put_lookup (c : LRU κ ν) (k : κ) (v : ν) (hn : 0 < c.maxSize) (h : c.entries.lookup k = none) :
    (c.put k v).1.entries.lookup k = some v := by
  have hk : ∀ e ∈ c.entries, e.1 ≠ k := by
    rintro ⟨a, b⟩ he rfl
    have := List.lookup_eq_none_iff.1 h _ he
    simp at this
  have hk' : k ∉ c.entries.map (·.1) := by
    intro hm
    obtain ⟨e, he, hek⟩ := List.mem_map.1 hm
    exact hk e he hek
  unfold LRU.put
  rw [if_neg (by omega)]
  simp only [if_neg hk', C36.dictSet_absent k v c.entries hk']
  obtain ⟨l', h1, h2⟩ := evict_last c.maxSize hn c.entries (k, v)
  rw [h1, lookup_skip _ _ _ (fun e he => hk e (h2 e he))]
  simp

end lookup

/-- What a lookup finds. -/
def found {κ ν : Type} [DecidableEq κ] (c : LRU κ ν) (k : κ) : Option ν := c.entries.lookup k

theorem get_found {κ ν : Type} [DecidableEq κ] (c : LRU κ ν) (k : κ) : (c.get k).2 = found c k := get_value c k

theorem found_get {κ ν : Type} [DecidableEq κ] (c : LRU κ ν) (k : κ) : found (c.get k).1 k = found c k := get_lookup c k

theorem found_empty {κ ν : Type} [DecidableEq κ] (c : LRU κ ν) (k : κ) (h : c.entries = []) : found c k = none := by
  unfold found; rw [h]; rfl

theorem found_put {κ ν : Type} [DecidableEq κ] (c : LRU κ ν) (k : κ) (v : ν) (hn : 0 < c.maxSize)
    (h : found c k = none) : found (c.put k v).1 k = some v := put_lookup c k v hn h

/-- The next reference fluid of `m` is `ref`. -/
def Stable (B : Backend σ) (m : FluidModel) (ref : σ) (s : Svc σ) : Prop :=
  0 ≤ s.flashes.maxSize ∧ ∃ c, m.composition.normalized = .ok c ∧
    ((s.refs.maxSize = 0 ∧ s.refs.entries = [] ∧ B.create m.eos c = .ok ref) ∨
     (0 < s.refs.maxSize ∧ found s.refs (compositionKey c, m.eos) = some ref))

/-- Sizes are not negative, and a disabled cache is empty. -/
def Sound (s : Svc σ) : Prop :=
  0 ≤ s.refs.maxSize ∧ 0 ≤ s.flashes.maxSize ∧ (s.refs.maxSize = 0 → s.refs.entries = []) ∧
  (s.flashes.maxSize = 0 → s.flashes.entries = [])

theorem sound_closed : Closed (Sound (σ := σ)) where
  getRef k s h := ⟨by simpa [getRef, get_size] using h.1, h.2.1,
    fun h0 => get_empty _ _ (h.2.2.1 (by simpa [getRef, get_size] using h0)), h.2.2.2⟩
  putRef k v s h := ⟨by simpa [putRef, put_size] using h.1, h.2.1, fun h0 => by
    have h0 : s.refs.maxSize = 0 := by simpa [putRef, put_size] using h0
    exact put_empty _ _ _ (h.2.2.1 h0) (le_of_eq h0), h.2.2.2⟩
  getFlash k s h := ⟨h.1, by simpa [getFlash, get_size] using h.2.1, h.2.2.1,
    fun h0 => get_empty _ _ (h.2.2.2 (by simpa [getFlash, get_size] using h0))⟩
  putFlash k v s h := ⟨h.1, by simpa [putFlash, put_size] using h.2.1, h.2.2.1, fun h0 => by
    have h0 : s.flashes.maxSize = 0 := by simpa [putFlash, put_size] using h0
    exact put_empty _ _ _ (h.2.2.2 h0) (le_of_eq h0)⟩
  clear s h := ⟨h.1, h.2.1, fun _ => rfl, fun _ => rfl⟩

theorem sound_after (B : Backend σ) (nr nf : ℤ) (hr : 0 ≤ nr) (hf : 0 ≤ nf) (ops : List Op) :
    Sound (after B nr nf ops) := keep_after sound_closed B nr nf ops ⟨hr, hf, fun _ => rfl, fun _ => rfl⟩

theorem run_bind (x : M σ α) (f : α → M σ β) (s : Svc σ) : (x >>= f) s =
    match x s with
    | (s', .ok a) => f a s'
    | (s', .error e) => (s', .error e) := rfl

/-- How `reference` runs for a composition that can be normalised. -/
theorem reference_run (B : Backend σ) (m : FluidModel) (c : Composition) (hn : m.composition.normalized = .ok c)
    (s : Svc σ) : reference B m s =
      match found s.refs (compositionKey c, m.eos) with
      | some ref => ({ s with refs := (s.refs.get (compositionKey c, m.eos)).1 }, .ok ref)
      | none => makeReference B (compositionKey c, m.eos) m.eos c
          { s with refs := (s.refs.get (compositionKey c, m.eos)).1 } := by
  unfold reference
  rw [run_bind, hn]
  simp only [lift]
  rw [run_bind]
  simp only [getRef, get_found]
  cases found s.refs (compositionKey c, m.eos) <;> rfl

theorem stable_reference (B : Backend σ) (m : FluidModel) (ref : σ) :
    Tri (Stable B m ref) (reference B m) (· = .ok ref) := by
  rintro s ⟨hf, c, hn, hs⟩
  rw [reference_run B m c hn s]
  rcases hs with ⟨h0, he, hc⟩ | ⟨hp, hl⟩
  · have hl : found s.refs (compositionKey c, m.eos) = none := found_empty _ _ he
    rw [hl]
    dsimp only
    have hput : ((s.refs.get (compositionKey c, m.eos)).1.put (compositionKey c, m.eos) ref) =
        ((s.refs.get (compositionKey c, m.eos)).1, .ok ()) := by
      unfold LRU.put; rw [if_pos (by rw [get_size]; exact h0)]
    have : makeReference B (compositionKey c, m.eos) m.eos c
        { s with refs := (s.refs.get (compositionKey c, m.eos)).1 } =
        ({ s with refs := (s.refs.get (compositionKey c, m.eos)).1 }, .ok ref) := by
      unfold makeReference
      change M.andThen (lift (B.create m.eos c)) _ _ = _
      rw [hc]
      change M.andThen (putRef _ ref) _ _ = _
      unfold M.andThen putRef
      simp only [hput]
      rfl
    rw [this]
    exact ⟨⟨hf, c, hn, .inl ⟨by simpa [get_size] using h0, get_empty _ _ he, hc⟩⟩, rfl⟩
  · rw [hl]
    exact ⟨⟨hf, c, hn, .inr ⟨by simpa [get_size] using hp, (found_get _ _).trans hl⟩⟩, rfl⟩

/-- After asking for a reference fluid, it is the next one too. -/
theorem reference_stable (B : Backend σ) (m : FluidModel) (s : Svc σ) (hs : Sound s) (ref : σ)
    (h : (reference B m s).2 = .ok ref) : Stable B m ref (reference B m s).1 := by
  cases hn : m.composition.normalized with
  | error e =>
    have : reference B m s = (s, .error (.thermo e)) := by
      unfold reference
      change M.andThen (lift m.composition.normalized) _ s = _
      rw [hn]; rfl
    rw [this] at h; cases h
  | ok c =>
    rw [reference_run B m c hn s] at h ⊢
    cases hl : found s.refs (compositionKey c, m.eos) with
    | some ref' =>
      rw [hl] at h
      dsimp only at h ⊢
      cases Except.ok.inj h
      have hp : 0 < s.refs.maxSize := by
        rcases lt_or_eq_of_le hs.1 with h | h
        · exact h
        · rw [found_empty _ _ (hs.2.2.1 h.symm)] at hl; cases hl
      exact ⟨hs.2.1, c, hn, .inr ⟨by simpa [get_size] using hp, (found_get _ _).trans hl⟩⟩
    | none =>
      rw [hl] at h
      dsimp only at h ⊢
      cases hc : B.create m.eos c with
      | error e =>
        exfalso
        unfold makeReference at h
        change (M.andThen (lift (B.create m.eos c)) _ _).2 = _ at h
        rw [hc] at h; cases h
      | ok ref' =>
        have hsize : 0 ≤ (s.refs.get (compositionKey c, m.eos)).1.maxSize := by rw [get_size]; exact hs.1
        have run : makeReference B (compositionKey c, m.eos) m.eos c
            { s with refs := (s.refs.get (compositionKey c, m.eos)).1 } =
            ({ s with refs := ((s.refs.get (compositionKey c, m.eos)).1.put (compositionKey c, m.eos) ref').1 },
              .ok ref') := by
          unfold makeReference
          change M.andThen (lift (B.create m.eos c)) _ _ = _
          rw [hc]
          change M.andThen (putRef _ ref') _ _ = _
          unfold M.andThen putRef
          simp only [put_ok _ hsize]
          rfl
        rw [run] at h ⊢
        cases Except.ok.inj h
        refine ⟨hs.2.1, c, hn, ?_⟩
        rcases lt_or_eq_of_le hs.1 with hp | h0
        · refine .inr ⟨by simpa [put_size, get_size] using hp, ?_⟩
          exact found_put _ _ _ (by simpa [get_size] using hp) ((found_get _ _).trans hl)
        · exact .inl ⟨by simpa [put_size, get_size] using h0.symm,
            put_empty _ _ _ (get_empty _ _ (hs.2.2.1 h0.symm)) (by simp [get_size, ← h0]), hc⟩

theorem stable_density (B : Backend σ) (m : FluidModel) (ref : σ) :
    Tri (Stable B m ref) (standardDensity B m) (· = densityOf B (.ok ref)) := by
  refine tri_bind (stable_reference B m ref) (fun a ha => ?_) (fun e he => by cases he)
  cases Except.ok.inj ha
  exact tri_lift _

theorem stable_extract (B : Backend σ) (m : FluidModel) (ref f : σ) : Tri (Stable B m ref) (extract B f m)
    (· = (do let mass ← up (molarMass m.composition); let d ← densityOf B (.ok ref); return B.read f mass d)) := by
  unfold extract
  refine tri_bind (tri_lift _) (fun mass hmass => ?_) (fun e he => by rw [← he]; rfl)
  refine tri_bind (stable_density B m ref) (fun d hd => tri_pure _ ?_) (fun e he => ?_)
  · rw [← hmass, ← hd]; rfl
  · rw [← hmass, ← he]; rfl

theorem stable_put (B : Backend σ) (m : FluidModel) (ref : σ) (k : Key) (r : Result) :
    Tri (Stable B m ref) (putFlash k r) (· = .ok ()) := by
  rintro s ⟨hf, h⟩
  exact ⟨⟨by simpa [putFlash, put_size] using hf, h⟩, by simp only [putFlash, put_ok _ hf]⟩

/-- **C106.** A standard rate turned into a mass rate is the rate times the density over 24 hours, and turning the mass
rate back gives the rate. -/
theorem C106_rates (B : Backend σ) (nr nf : ℤ) (hr : 0 ≤ nr) (hf : 0 ≤ nf) (ops : List Op) (m : FluidModel)
    (rate d : ℚ) (hd : (standardDensity B m (after B nr nf ops)).2 = .ok (some d)) (h0 : d ≠ 0) :
    (toMassRate B m rate (after B nr nf ops)).2 = .ok (some (rate * d / 24)) ∧
    (toStandardRate B m (rate * d / 24) (toMassRate B m rate (after B nr nf ops)).1).2 = .ok (some rate) := by
  have hs := sound_after B nr nf hr hf ops
  generalize after B nr nf ops = s at hs hd
  have hrun : toMassRate B m rate s = ((standardDensity B m s).1, .ok (some (rate * d / 24))) := by
    unfold toMassRate
    rw [run_bind]
    rcases h : standardDensity B m s with ⟨s', o⟩
    rw [h] at hd
    dsimp only at hd
    subst hd
    rfl
  have hst : ∃ ref, Stable B m ref (standardDensity B m s).1 ∧ densityOf B (.ok ref) = .ok (some d) := by
    have hb : standardDensity B m s = (reference B m >>= fun ref => lift (B.gasDensity ref)) s := rfl
    rw [hb, run_bind] at hd ⊢
    rcases h : reference B m s with ⟨s', o⟩
    rw [h] at hd
    cases o with
    | error e => cases hd
    | ok ref =>
      have := reference_stable B m s hs ref (by rw [h])
      rw [h] at this
      dsimp only at hd ⊢
      have hl := tri_lift (I := Stable B m ref) (B.gasDensity ref) s' this
      refine ⟨ref, hl.1, ?_⟩
      rw [hl.2] at hd
      exact hd
  rw [hrun]
  refine ⟨rfl, ?_⟩
  obtain ⟨ref, h1, h2⟩ := hst
  have h3 := (stable_density B m ref _ h1).2
  rw [h2] at h3
  dsimp only
  unfold toStandardRate
  rw [run_bind]
  rcases h : standardDensity B m (standardDensity B m s).1 with ⟨s', o⟩
  rw [h] at h3
  dsimp only at h3
  subst h3
  change Except.ok (Option.bind (some d) _) = _
  simp only [Option.bind_some, if_neg h0]
  congr 2
  field_simp

/-- The part of `computePt` after the reference fluid. -/
def rest (B : Backend σ) (k : Key) (m : FluidModel) (p t : ℚ) (ref : σ) : M σ Result := do
  let f ← lift (B.tp ref p t)
  let r ← extract B f m
  putFlash k r
  return r

theorem stable_rest (B : Backend σ) (m : FluidModel) (ref : σ) (k : Key) (p t : ℚ) :
    Tri (Stable B m ref) (rest B k m p t ref)
      (· = outcome B m (.ok ref) (densityOf B (.ok ref)) fun ref => B.tp ref p t) := by
  refine tri_bind (tri_lift _) (fun f hf => ?_) (fun e he => ?_)
  · refine tri_bind (stable_extract B m ref f) (fun r hr => ?_) (fun e he => ?_)
    · refine tri_bind (stable_put B m ref k r) (fun _ _ => tri_pure _ ?_) (fun e he => by cases he)
      rw [hr]; simp only [outcome, Bind.bind, Except.bind, ← hf]
    · rw [he]; simp only [outcome, Bind.bind, Except.bind, ← hf]
  · simp only [outcome, Bind.bind, Except.bind, ← he]

theorem keep_rest {I : Svc σ → Prop} (hI : Closed I) (B : Backend σ) (k : Key) (m : FluidModel) (p t : ℚ) (ref : σ) :
    Tri I (rest B k m p t ref) Any :=
  keep_bind (keep_lift _) fun _ => keep_bind (keep_extract hI B _ m) fun _ =>
    keep_bind (fun s hs => ⟨hI.putFlash _ _ s hs, trivial⟩) fun _ => keep_pure _

theorem sizes_closed (n : ℤ) : Closed (fun s : Svc σ => s.flashes.maxSize = n) where
  getRef _ _ h := h
  putRef _ _ _ h := h
  getFlash k s h := by simpa [getFlash, get_size] using h
  putFlash k v s h := by simpa [putFlash, put_size] using h
  clear _ h := h

theorem flashes_reference (B : Backend σ) (F : LRU Key Result) (m : FluidModel) :
    Tri (fun s => s.flashes = F) (reference B m) Any := by
  refine keep_bind (keep_lift _) fun c => keep_bind (fun s hs => ⟨hs, trivial⟩) fun x => ?_
  cases x with
  | some r => exact keep_pure _
  | none => exact keep_bind (keep_lift _) fun r => keep_bind (fun s hs => ⟨hs, trivial⟩) fun _ => keep_pure _

theorem rest_found (B : Backend σ) (k : Key) (m : FluidModel) (p t : ℚ) (ref : σ) (r : Result) (s : Svc σ)
    (hok : (rest B k m p t ref s).2 = .ok r) (hp : 0 < s.flashes.maxSize) (hl : found s.flashes k = none) :
    found (rest B k m p t ref s).1.flashes k = some r := by
  unfold rest at hok ⊢
  rw [run_bind] at hok ⊢
  cases hf : B.tp ref p t with
  | error e => rw [hf] at hok; cases hok
  | ok f =>
    rw [hf] at hok
    simp only [lift] at hok ⊢
    rw [run_bind] at hok ⊢
    have hfl : Tri (fun s' : Svc σ => s'.flashes = s.flashes) (extract B f m) Any :=
      keep_bind (keep_lift _) fun _ => keep_bind
        (keep_bind (flashes_reference B s.flashes m) fun _ => keep_lift _) fun _ => keep_pure _
    have hfl := (hfl s rfl).1
    rcases he : extract B f m s with ⟨s', o⟩
    rw [he] at hok hfl
    dsimp only at hfl
    cases o with
    | error e => cases hok
    | ok r' =>
      dsimp only at hok ⊢
      have hput : (putFlash k r' >>= fun _ => (pure r' : M σ Result)) s' =
          ({ s' with flashes := (s'.flashes.put k r').1 }, .ok r') := by
        rw [run_bind]
        simp only [putFlash, put_ok _ (by rw [hfl]; exact le_of_lt hp : 0 ≤ s'.flashes.maxSize)]
        rfl
      rw [hput] at hok ⊢
      cases Except.ok.inj hok
      exact found_put _ _ _ (by rw [hfl]; exact hp) (by rw [hfl]; exact hl)

/-- **C106.** Asking for the same flash again gives the same result, whether it is kept or computed again. -/
theorem C106_repeat (B : Backend σ) (nr nf : ℤ) (hr : 0 ≤ nr) (hf : 0 ≤ nf) (ops : List Op) (m : FluidModel) (p t : ℚ)
    (r : Result) (hok : (flashPt B m p t (after B nr nf ops)).2 = .ok r) :
    (flashPt B m p t (flashPt B m p t (after B nr nf ops)).1).2 = .ok r := by
  have hs := sound_after B nr nf hr hf ops
  generalize after B nr nf ops = s at hs hok
  cases hn : m.composition.normalized with
  | error e =>
    have : flashPt B m p t s = (s, .error (.thermo e)) := by
      unfold flashPt; rw [run_bind, hn]; rfl
    rw [this] at hok; cases hok
  | ok c =>
    generalize hk : Key.tp (compositionKey c) m.eos (steps 6 p) (steps 6 t) = k
    have run : ∀ s : Svc σ, flashPt B m p t s = match found s.flashes k with
        | some r => ({ s with flashes := (s.flashes.get k).1 }, .ok r)
        | none => computePt B k m p t { s with flashes := (s.flashes.get k).1 } := by
      intro s
      unfold flashPt
      rw [run_bind, hn]
      simp only [lift]
      rw [run_bind, hk]
      simp only [getFlash, get_found]
      cases found s.flashes k <;> rfl
    have hit : ∀ s : Svc σ, found s.flashes k = some r → (flashPt B m p t s).2 = .ok r := by
      intro s h; rw [run s, h]
    have hrun := run s
    cases hl : found s.flashes k with
    | some r' =>
      rw [hl] at hrun
      rw [hrun] at hok ⊢
      cases Except.ok.inj hok
      exact hit _ ((found_get _ _).trans hl)
    | none =>
      rw [hl] at hrun
      dsimp only at hrun
      rw [hrun] at hok ⊢
      -- the state after the miss
      have hs1 : Sound { s with flashes := (s.flashes.get k).1 } := sound_closed.getFlash k s hs
      have hl1 : found ({ s with flashes := (s.flashes.get k).1 } : Svc σ).flashes k = none := by
        exact (found_get _ _).trans hl
      generalize ({ s with flashes := (s.flashes.get k).1 } : Svc σ) = s1 at hs1 hl1 hok
      have hb : ∀ s, computePt B k m p t s = (reference B m >>= rest B k m p t) s := fun s => rfl
      have hrs : (reference B m s1).1.flashes = s1.flashes := (flashes_reference B s1.flashes m s1 rfl).1
      rw [hb, run_bind] at hok ⊢
      rcases href : reference B m s1 with ⟨s2, o⟩
      rw [href] at hok hrs
      dsimp only at hrs
      cases o with
      | error e => cases hok
      | ok ref =>
        have hst : Stable B m ref s2 := by
          have := reference_stable B m s1 hs1 ref (by rw [href])
          rwa [href] at this
        dsimp only at hok ⊢
        have hout := stable_rest B m ref k p t s2 hst
        rcases lt_or_eq_of_le hs1.2.1 with hp | h0
        · exact hit _ (rest_found B k m p t ref r s2 hok (by rw [hrs]; exact hp) (by rw [hrs]; exact hl1))
        · have hsound : Sound (rest B k m p t ref s2).1 := by
            have h2 : Sound s2 := by
              have := (keep_reference sound_closed B m s1 hs1).1
              rwa [href] at this
            exact (keep_rest sound_closed B k m p t ref s2 h2).1
          have hmax : (rest B k m p t ref s2).1.flashes.maxSize = 0 := by
            have := (keep_rest (sizes_closed s2.flashes.maxSize) B k m p t ref s2 rfl).1
            rw [this, hrs, ← h0]
          rw [run, found_empty _ _ (hsound.2.2.2 hmax)]
          dsimp only
          generalize (rest B k m p t ref s2).1 = s3 at hout
          have hget : Stable B m ref ({ s3 with flashes := (s3.flashes.get k).1 } : Svc σ) :=
            ⟨by simpa [get_size] using hout.1.1, hout.1.2⟩
          have h4 : Tri (Stable B m ref) (computePt B k m p t)
              (· = outcome B m (.ok ref) (densityOf B (.ok ref)) fun ref => B.tp ref p t) := by
            refine tri_bind (stable_reference B m ref) (fun a ha => ?_) (fun e he => by cases he)
            cases Except.ok.inj ha
            exact stable_rest B m ref k p t
          rw [(h4 _ hget).2, ← hout.2, hok]

/-! ### What NeqSim gets -/

theorem name_inj {a b : Component} (h : neqsimName a = neqsimName b) : a = b := by
  cases a <;> cases b <;> first | rfl | exact absurd h (by decide +kernel)

theorem lookup_names (l : List Component) (c : Composition) (k : Component) :
    (l.map fun k => (neqsimName k, c k)).lookup (neqsimName k) = if k ∈ l then some (c k) else none := by
  induction l with
  | nil => rfl
  | cons a l ih =>
    rw [List.map_cons, List.lookup_cons]
    by_cases h : k = a
    · subst h; simp
    · have : (neqsimName k == neqsimName a) = false := by simpa using fun h' => h (name_inj h')
      simp [this, ih, h]

theorem all_nodup : Component.all.Nodup := by decide

theorem mem_all (k : Component) : k ∈ Component.all := by cases k <;> simp [Component.all]

theorem norm_ok {c n : Composition} (h : c.normalized = .ok n) : (∀ k, 0 ≤ n k) ∧ n.total = 1 := by
  unfold Composition.normalized at h
  split at h
  · cases h
  · rename_i h0
    unfold Composition.make at h
    split at h
    · rename_i hall
      have hn := Except.ok.inj h
      subst hn
      refine ⟨fun k => by simpa using List.all_eq_true.1 hall k (mem_all k), ?_⟩
      unfold Composition.total at h0 ⊢
      simp only [Component.all, List.map_cons, List.map_nil, List.sum_cons, List.sum_nil] at h0 ⊢
      field_simp
      ring
    · cases h

theorem sum_filter (l : List Component) (c : Composition) (h : ∀ k, 0 ≤ c k) :
    (((l.filter fun k => decide (0 < c k)).map c).sum : ℚ) = (l.map c).sum := by
  induction l with
  | nil => rfl
  | cons a l ih =>
    by_cases ha : 0 < c a
    · rw [List.filter_cons_of_pos (by simpa using ha)]; simp [ih]
    · rw [List.filter_cons_of_neg (by simpa using ha)]
      have : c a = 0 := le_antisymm (not_lt.1 ha) (h a)
      simp [ih, this]

/-- **C106.** NeqSim gets every component with a positive fraction, once, with its normalised fraction, under a name of
its own; the fractions add up to 1. Reading such a composition back from NeqSim gives the same normalised fractions. -/
theorem C106_components (m : FluidModel) (c : Composition) (hn : m.composition.normalized = .ok c) :
    ∃ l, toNeqsim c = .ok l ∧ (∀ name v, (name, v) ∈ l ↔ ∃ k, name = neqsimName k ∧ v = c k ∧ 0 < c k) ∧
      (l.map (·.1)).Nodup ∧ (l.map (·.2)).sum = 1 ∧ fromNeqsim l = .ok c := by
  obtain ⟨hpos, htot⟩ := norm_ok hn
  have hsum : (((Component.all.filter fun k => decide (0 < c k)).map fun k => (neqsimName k, c k)).map (·.2)).sum = 1 := by
    rw [List.map_map]
    have : ((fun e : String × ℚ => e.2) ∘ fun k => (neqsimName k, c k)) = c := rfl
    rw [this, sum_filter _ _ hpos]
    exact htot
  have hmem : ∀ name v, (name, v) ∈ (Component.all.filter fun k => decide (0 < c k)).map (fun k => (neqsimName k, c k)) ↔
      ∃ k, name = neqsimName k ∧ v = c k ∧ 0 < c k := by
    intro name v
    simp only [List.mem_map, List.mem_filter, mem_all, true_and, decide_eq_true_eq, Prod.mk.injEq]
    constructor
    · rintro ⟨k, h1, h2, h3⟩; exact ⟨k, h2.symm, h3.symm, h1⟩
    · rintro ⟨k, h1, h2, h3⟩; exact ⟨k, h3, h1.symm, h2.symm⟩
  have hok : toNeqsim c = .ok ((Component.all.filter fun k => decide (0 < c k)).map fun k => (neqsimName k, c k)) := by
    unfold toNeqsim
    dsimp only
    rw [if_neg]
    intro hlen
    have : ((Component.all.filter fun k => decide (0 < c k)).map fun k => (neqsimName k, c k)) = [] :=
      List.eq_nil_of_length_eq_zero (by omega)
    rw [this] at hsum
    simp at hsum
  refine ⟨_, hok, hmem, ?_, hsum, ?_⟩
  · rw [List.map_map]
    exact (all_nodup.filter _).map (fun a b h => name_inj h)
  · have hfr : ∀ k, fractionOf ((Component.all.filter fun k => decide (0 < c k)).map fun k => (neqsimName k, c k))
        (neqsimName k) = c k := by
      intro k
      unfold fractionOf
      rw [← List.map_reverse, lookup_names]
      by_cases h : 0 < c k
      · rw [if_pos (by simp [mem_all, h])]
      · rw [if_neg (by simp [h])]
        exact (le_antisymm (not_lt.1 h) (hpos k)).symm
    unfold fromNeqsim
    rw [if_neg, if_neg]
    · have he : (fun k => fractionOf ((Component.all.filter fun k => decide (0 < c k)).map fun k => (neqsimName k, c k))
          (neqsimName k)) = c := funext hfr
      rw [he]
      unfold Composition.normalized
      rw [htot, if_neg one_ne_zero]
      unfold Composition.make
      simp only [div_one]
      rw [if_pos]
      simpa using fun k _ => hpos k
    · simp only [List.any_eq_true, decide_eq_true_eq, hfr, not_exists, not_and, not_lt]
      exact fun k _ => hpos k
    · simp only [List.any_eq_true, not_exists, not_and]
      rintro ⟨name, v⟩ hin
      obtain ⟨k, rfl, -, -⟩ := (hmem name v).1 hin
      simpa using ⟨k, mem_all k, rfl⟩

/-- **C106.** The molar mass of a mixture is the mean of the weights of its components by their normalised fractions:
that of a pure fluid is the weight of its component, and any other is between the weights of the components present. -/
theorem C106_mass (m : FluidModel) (c : Composition) (hn : m.composition.normalized = .ok c) :
    ∃ mass, molarMass m.composition = .ok mass ∧ mass = (Component.all.map fun k => c k * weight k).sum ∧
      (∀ k, c k = 1 → mass = weight k) ∧
      (∀ lo, (∀ k, 0 < c k → lo ≤ weight k) → lo ≤ mass) ∧ (∀ hi, (∀ k, 0 < c k → weight k ≤ hi) → mass ≤ hi) := by
  obtain ⟨hpos, htot⟩ := norm_ok hn
  have hsum : ∀ (l : List Component),
      ((l.filter fun k => decide (0 < c k)).map fun k => c k * weight k).sum = (l.map fun k => c k * weight k).sum := by
    intro l
    induction l with
    | nil => rfl
    | cons a l ih =>
      by_cases ha : 0 < c a
      · rw [List.filter_cons_of_pos (by simpa using ha)]; simp [ih]
      · rw [List.filter_cons_of_neg (by simpa using ha)]
        have : c a = 0 := le_antisymm (not_lt.1 ha) (hpos a)
        simp [ih, this]
  have hlow : ∀ lo, (∀ k, 0 < c k → lo ≤ weight k) →
      ∀ l : List Component, lo * (l.map c).sum ≤ (l.map fun k => c k * weight k).sum := by
    intro lo hlo l
    induction l with
    | nil => simp
    | cons a l ih =>
      simp only [List.map_cons, List.sum_cons]
      have : lo * c a ≤ c a * weight a := by
        rcases (hpos a).lt_or_eq with h | h
        · nlinarith [hlo a h]
        · rw [← h]; simp
      linarith
  have hhigh : ∀ hi, (∀ k, 0 < c k → weight k ≤ hi) →
      ∀ l : List Component, (l.map fun k => c k * weight k).sum ≤ hi * (l.map c).sum := by
    intro hi hhi l
    induction l with
    | nil => simp
    | cons a l ih =>
      simp only [List.map_cons, List.sum_cons]
      have : c a * weight a ≤ hi * c a := by
        rcases (hpos a).lt_or_eq with h | h
        · nlinarith [hhi a h]
        · rw [← h]; simp
      linarith
  have htot' : (Component.all.map c).sum = 1 := htot
  have lo' : ∀ lo, (∀ k, 0 < c k → lo ≤ weight k) → lo ≤ (Component.all.map fun k => c k * weight k).sum := by
    intro lo h; have := hlow lo h Component.all; rwa [htot', mul_one] at this
  have hi' : ∀ hi, (∀ k, 0 < c k → weight k ≤ hi) → (Component.all.map fun k => c k * weight k).sum ≤ hi := by
    intro hi h; have := hhigh hi h Component.all; rwa [htot', mul_one] at this
  refine ⟨_, by unfold molarMass; rw [hn], hsum _, ?_, ?_, ?_⟩
  · intro k hk
    rw [hsum]
    have only : ∀ j, 0 < c j → j = k := by
      intro j hj
      by_contra hne
      have h0 : ∀ x, 0 ≤ c x := hpos
      have hperm : (Component.all.map c).sum = c k + ((Component.all.erase k).map c).sum := by
        rw [← List.sum_cons, ← List.map_cons]
        exact ((List.perm_cons_erase (mem_all k)).map c).sum_eq
      have hj' : j ∈ Component.all.erase k := (List.mem_erase_of_ne hne).2 (mem_all j)
      have hle : c j ≤ ((Component.all.erase k).map c).sum :=
        List.single_le_sum (by simpa using fun x _ => h0 x) _ (List.mem_map_of_mem hj')
      rw [htot', hk] at hperm
      linarith
    exact le_antisymm (hi' _ fun j hj => by rw [only j hj]) (lo' _ fun j hj => by rw [only j hj])
  · intro lo h; rw [hsum]; exact lo' lo h
  · intro hi h; rw [hsum]; exact hi' hi h

/-- Carbon atoms of an alkane. -/
def carbons : Component → ℚ
  | .methane => 1 | .ethane => 2 | .propane => 3 | .i_butane => 4 | .n_butane => 4 | .i_pentane => 5 | .n_pentane => 5
  | .n_hexane => 6 | _ => 0

/-- **C106.** The molar mass of a mixture of alkanes only depends on the mean number of carbon atoms, isomers weigh the
same: two atoms of hydrogen, and 14.02658 g/mol for every CH2; water, nitrogen and CO2 add their share. -/
theorem C106_alkanes (m : FluidModel) (c : Composition) (hn : m.composition.normalized = .ok c) (mass : ℚ)
    (h : molarMass m.composition = .ok mass) :
    mass * 10 ^ 8 = 201588 * (1 - c .water - c .nitrogen - c .CO2) +
      1402658 * (Component.all.map fun k => c k * carbons k).sum + 1801534 * c .water + 2801340 * c .nitrogen +
      4400995 * c .CO2 := by
  obtain ⟨mass', h1, h2, -⟩ := C106_mass m c hn
  have : mass = mass' := Except.ok.inj (h.symm.trans h1)
  subst this
  have htot : (Component.all.map c).sum = 1 := (norm_ok hn).2
  simp only [Component.all, List.map_cons, List.map_nil, List.sum_cons, List.sum_nil, weight, carbons] at *
  rw [h2]
  linarith

/-! ### Sizes of the caches -/

/-- What may happen to the global service. -/
inductive WOp where
  | configure (c : Config)
  | instance_
  | reset
  | call (op : Op)

/-- One step; a call uses the registered caches. -/
def wstep (B : Backend σ) (w : World σ) : WOp → World σ
  | .configure c => (w.configure c).1
  | .instance_ => w.instance_
  | .reset => w.reset
  | .call op => { w with caches := w.caches.map fun s => step B s op }

/-- Specification: the configuration in force before the first instance. -/
def wanted : Option Config → List WOp → Option Config
  | c, [] => c
  | _, .configure c :: ops => wanted (some c) ops
  | _, .reset :: ops => wanted none ops
  | c, _ :: ops => wanted c ops

theorem wanted_start (B : Backend σ) (ops : List WOp) (h : WOp.instance_ ∉ ops) (c : Option Config) :
    ops.foldl (wstep B) ⟨false, c, none⟩ = ⟨false, wanted c ops, none⟩ := by
  induction ops generalizing c with
  | nil => rfl
  | cons op ops ih =>
    have h' : WOp.instance_ ∉ ops := fun hm => h (List.mem_cons_of_mem _ hm)
    cases op with
    | configure c' => exact ih h' _
    | instance_ => exact absurd List.mem_cons_self h
    | reset => exact ih h' _
    | call op => exact ih h' _

theorem bothSizes_closed (a b : ℤ) : Closed (fun s : Svc σ => s.refs.maxSize = a ∧ s.flashes.maxSize = b) where
  getRef k s h := ⟨by simpa [getRef, get_size] using h.1, h.2⟩
  putRef k v s h := ⟨by simpa [putRef, put_size] using h.1, h.2⟩
  getFlash k s h := ⟨h.1, by simpa [getFlash, get_size] using h.2⟩
  putFlash k v s h := ⟨h.1, by simpa [putFlash, put_size] using h.2⟩
  clear _ h := h

/-- **C106.** The caches have the sizes configured last before the service was first used, or the default sizes if none
were configured, and keep them whatever happens later. -/
theorem C106_sizes (B : Backend σ) (pre post : List WOp) (hpre : WOp.instance_ ∉ pre) :
    ∃ s, ((pre ++ WOp.instance_ :: post).foldl (wstep B) World.start).caches = some s ∧
      s.refs.maxSize = ((wanted none pre).getD ⟨512, 100000⟩).refs ∧
      s.flashes.maxSize = ((wanted none pre).getD ⟨512, 100000⟩).flashes := by
  rw [List.foldl_append, List.foldl_cons]
  have h0 : pre.foldl (wstep B) World.start = ⟨false, wanted none pre, none⟩ := wanted_start B pre hpre none
  rw [h0]
  have h1 : ∃ s : Svc σ, (wstep B ⟨false, wanted none pre, none⟩ .instance_).caches = some s ∧
      s.refs.maxSize = ((wanted none pre).getD ⟨512, 100000⟩).refs ∧
      s.flashes.maxSize = ((wanted none pre).getD ⟨512, 100000⟩).flashes := ⟨_, rfl, rfl, rfl⟩
  generalize wstep B (⟨false, wanted none pre, none⟩ : World σ) .instance_ = w at h1
  induction post generalizing w with
  | nil => exact h1
  | cons op post ih =>
    rw [List.foldl_cons]
    refine ih _ ?_
    obtain ⟨s, hs, hsz⟩ := h1
    cases op with
    | configure c =>
      refine ⟨s, ?_, hsz⟩
      simp only [wstep, World.configure]
      split <;> exact hs
    | instance_ =>
      simp only [wstep, World.instance_]
      split
      · exact ⟨s, hs, hsz⟩
      · exact ⟨s, by simp [hs, createCaches], hsz⟩
    | reset => exact ⟨s, hs, hsz⟩
    | call op =>
      refine ⟨step B s op, by simp [wstep, hs], ?_⟩
      exact keep_step (bothSizes_closed _ _) B op s hsz

/-- **C106.** While the service is in use a new configuration is refused, and nothing changes. -/
theorem C106_configure_late (B : Backend σ) (w : World σ) (post : List WOp) (hpost : WOp.reset ∉ post) (c : Config) :
    ((WOp.instance_ :: post).foldl (wstep B) w).configure c = ((WOp.instance_ :: post).foldl (wstep B) w, false) := by
  have h : ((WOp.instance_ :: post).foldl (wstep B) w).exists_ = true := by
    rw [List.foldl_cons]
    have h1 : (wstep B w .instance_).exists_ = true := by
      simp only [wstep, World.instance_]
      split
      · assumption
      · rfl
    generalize wstep B w .instance_ = w' at h1
    induction post generalizing w' with
    | nil => exact h1
    | cons op post ih =>
      rw [List.foldl_cons]
      refine ih (fun hm => hpost (List.mem_cons_of_mem _ hm)) _ ?_
      cases op with
      | configure c => simp [wstep, World.configure, h1]
      | instance_ => simp [wstep, World.instance_, h1]
      | reset => exact absurd List.mem_cons_self hpost
      | call op => exact h1
  unfold World.configure
  rw [if_pos h]

/-- **C106.** A size given on the command line is used if it is not 0, and the default size if none is given. Without
options nothing is configured. -/
theorem C106_cli (refs flashes : Option ℤ) :
    (refs = none ∧ flashes = none ↔ cliConfig refs flashes = none) ∧
    ∀ c, cliConfig refs flashes = some c →
      (∀ n, refs = some n → n ≠ 0 → c.refs = n) ∧ (refs = none → c.refs = 512) ∧
      (∀ n, flashes = some n → n ≠ 0 → c.flashes = n) ∧ (flashes = none → c.flashes = 100000) := by
  refine ⟨?_, ?_⟩
  · cases refs <;> cases flashes <;> simp [cliConfig]
  · intro c hc
    unfold cliConfig at hc
    split at hc
    · cases Option.some.inj hc
      refine ⟨?_, ?_, ?_, ?_⟩
      · rintro n rfl hn; simp [orElse, hn]
      · rintro rfl; rfl
      · rintro n rfl hn; simp [orElse, hn]
      · rintro rfl; rfl
    · cases hc

/-! ### What a result consists of -/

theorem up_ok {x : Except PErr α} {a : α} (h : up x = .ok a) : x = .ok a := by
  cases x with
  | error e => cases h
  | ok b => rw [Except.ok.inj h]

theorem seq_ok {x : Except FErr α} {f : α → Except FErr β} {b : β} (h : x.bind f = .ok b) :
    ∃ a, x = .ok a ∧ f a = .ok b := by
  cases x with
  | error e => cases h
  | ok a => exact ⟨a, rfl, h⟩

/-- The standard density that belongs to a reference fluid: its own if at most one part in ten thousand is liquid,
otherwise, also if the vapour fraction is NaN, that of its gas. -/
structure StandardDensity (B : Backend σ) (ref : σ) (d : Option ℚ) : Prop where
  vapour : ∀ v, B.vapor ref = some v → (9999 / 10000 : ℚ) ≤ v → d = B.density ref
  liquid : (∀ v, B.vapor ref = some v → v < (9999 / 10000 : ℚ)) → ∃ g, B.gas ref = .ok g ∧ d = B.density g

/-- The result `r` has every property of the flashed system `f`, each in its place. -/
structure ReadFrom (B : Backend σ) (f : σ) (r : Result) : Prop where
  temperature : r.temperature = B.temperature f
  pressure : r.pressure = B.pressure f
  density : r.density = B.density f
  enthalpy : r.enthalpy = B.enthalpy f
  z : r.z = B.z f
  kappa : r.kappa = B.kappa f
  vapor : r.vapor = B.vapor f

theorem gasDensity_is {B : Backend σ} {ref : σ} {d : Option ℚ} (h : B.gasDensity ref = .ok d) :
    StandardDensity B ref d := by
  unfold Backend.gasDensity at h
  refine ⟨fun v hv hle => ?_, fun hlt => ?_⟩
  · rw [if_pos (by rw [hv]; exact decide_eq_true (by unfold pureVapor; exact hle))] at h
    exact (Except.ok.inj h).symm
  · have hn : ¬ allVapor (B.vapor ref) = true := by
      cases hv : B.vapor ref with
      | none => simp [allVapor]
      | some v => have := hlt v hv; exact fun hd => absurd (of_decide_eq_true hd) (not_le.mpr this)
    rw [if_neg hn] at h
    cases hg : B.gas ref with
    | error e => rw [hg] at h; cases h
    | ok g => rw [hg] at h; exact ⟨g, rfl, (Except.ok.inj h).symm⟩

theorem outcome_is {B : Backend σ} {m : FluidModel} {flash : σ → Except PErr σ} {r : Result}
    (h : outcome B m (plainRef B m) (densityOf B (plainRef B m)) flash = .ok r) :
    ∃ ref f, plainRef B m = .ok ref ∧ flash ref = .ok f ∧ ReadFrom B f r ∧ StandardDensity B ref r.stdDensity ∧
      molarMass m.composition = .ok r.molarMass := by
  obtain ⟨ref, hr, h⟩ := seq_ok h
  obtain ⟨f, hf, h⟩ := seq_ok h
  obtain ⟨mass, hm, h⟩ := seq_ok h
  obtain ⟨d, hd, h⟩ := seq_ok h
  obtain ⟨ref', hr', hd⟩ := seq_ok hd
  rw [hr] at hr'
  cases Except.ok.inj hr'
  have h := Except.ok.inj h
  subst h
  exact ⟨ref, f, hr, up_ok hf, ⟨rfl, rfl, rfl, rfl, rfl, rfl, rfl⟩, gasDensity_is (up_ok hd), up_ok hm⟩

/-- **C106.** Without caches, a result has every property of the system that NeqSim flashed, the molar mass of the
composition, and the density of the gas of the fluid at standard conditions. -/
theorem C106_uncached (B : Backend σ) (ops : List Op) (m : FluidModel) (r : Result) :
    (∀ p t, (flashPt B m p t (after B 0 0 ops)).2 = .ok r →
      ∃ ref f, plainRef B m = .ok ref ∧ B.tp ref p t = .ok f ∧ ReadFrom B f r ∧ StandardDensity B ref r.stdDensity ∧
        molarMass m.composition = .ok r.molarMass) ∧
    (∀ p h, (flashPh B m p h none (after B 0 0 ops)).2 = .ok r →
      ∃ ref f, plainRef B m = .ok ref ∧ B.ph ref p h = .ok f ∧ ReadFrom B f r ∧ StandardDensity B ref r.stdDensity ∧
        molarMass m.composition = .ok r.molarMass) ∧
    (∀ p h t, (flashPh B m p h (some t) (after B 0 0 ops)).2 = .ok r →
      ∃ ref f g, plainRef B m = .ok ref ∧ B.tp ref p t = .ok g ∧ B.ph g p h = .ok f ∧ ReadFrom B f r ∧
        StandardDensity B ref r.stdDensity ∧ molarMass m.composition = .ok r.molarMass) := by
  have hc := C106_disabled B ops
  have un : ∀ {h : ℚ} {o : Except FErr Result}, checked h o = .ok r → o = .ok r := by
    intro h o hh
    obtain ⟨r', ho, hh⟩ := seq_ok hh
    by_cases ha : accepted r' h = true
    · rw [if_pos ha] at hh
      rw [ho]; exact congrArg _ (Except.ok.inj hh)
    · rw [if_neg ha] at hh; cases hh
  refine ⟨fun p t h => ?_, fun p h hh => ?_, fun p h t hh => ?_⟩
  · rw [hc.1] at h
    exact outcome_is h
  · rw [hc.2] at hh
    exact outcome_is (un hh)
  · rw [hc.2] at hh
    obtain ⟨ref, f, hr, hf, h1, h2, h3⟩ := outcome_is (un hh)
    simp only [Backend.solve] at hf
    cases hg : B.tp ref p t with
    | error e => rw [hg] at hf; cases hf
    | ok g => rw [hg] at hf; exact ⟨ref, f, g, hr, hg, hf, h1, h2, h3⟩

theorem andThen_ok {x : M σ α} {f : α → M σ β} {s : Svc σ} {b : β} (h : (M.andThen x f s).2 = .ok b) :
    ∃ a s', (x s).2 = .ok a ∧ (f a s').2 = .ok b := by
  unfold M.andThen at h
  rcases hx : x s with ⟨s', o⟩
  rw [hx] at h
  cases o with
  | error e => cases h
  | ok a => exact ⟨a, s', rfl, h⟩

theorem lift_ok {x : Except PErr α} {s : Svc σ} {a : α} (h : (lift x s).2 = .ok a) : x = .ok a := by
  cases x with
  | error e => cases h
  | ok b => exact congrArg _ (Except.ok.inj h)

/-- **C106.** Removing liquid leaves a fluid alone if at most one part in ten thousand of it is liquid. Otherwise, also if
the vapour fraction is NaN, the result is the gas of a flash to the pressure and temperature of the fluid: its
components and everything that is read from it. -/
theorem C106_gas_only (B : Backend σ) (m : FluidModel) (props : Result) (s : Svc σ) :
    (∀ v, props.vapor = some v → (9999 / 10000 : ℚ) ≤ v → removeLiquid B m props s = (s, .ok (m, props))) ∧
    ((∀ v, props.vapor = some v → v < (9999 / 10000 : ℚ)) → ∀ m' r, (removeLiquid B m props s).2 = .ok (m', r) →
      ∃ p t ref f g, props.pressure = some p ∧ props.temperature = some t ∧ B.tp ref p t = .ok f ∧ B.gas f = .ok g ∧
        m'.eos = m.eos ∧ fromNeqsim (B.components g) = .ok m'.composition ∧ ReadFrom B g r ∧
        molarMass m'.composition = .ok r.molarMass) := by
  refine ⟨fun v hv hle => ?_, fun hlt m' r h => ?_⟩
  · unfold Flash.removeLiquid
    rw [if_pos (by rw [hv]; exact decide_eq_true (by unfold pureVapor; exact hle))]
    rfl
  · have hf : ¬ allVapor props.vapor = true := by
      cases hv : props.vapor with
      | none => simp [allVapor]
      | some v => have := hlt v hv; exact fun hd => absurd (of_decide_eq_true hd) (not_le.mpr this)
    unfold Flash.removeLiquid at h
    rw [if_neg hf] at h
    cases hp : props.pressure with
    | none =>
      rw [hp] at h
      obtain ⟨_, _, _, h⟩ := andThen_ok h
      cases h
    | some p =>
      cases ht : props.temperature with
      | none =>
        rw [hp, ht] at h
        obtain ⟨_, _, _, h⟩ := andThen_ok h
        cases h
      | some t =>
        rw [hp, ht] at h
        obtain ⟨ref, _, _, h⟩ := andThen_ok h
        obtain ⟨f, _, hf, h⟩ := andThen_ok h
        obtain ⟨g, _, hg, h⟩ := andThen_ok h
        obtain ⟨c, _, hc, h⟩ := andThen_ok h
        obtain ⟨r', _, hr, h⟩ := andThen_ok h
        obtain ⟨mass, _, hm, hr⟩ := andThen_ok hr
        obtain ⟨std, _, _, hr⟩ := andThen_ok hr
        have hr := Except.ok.inj hr
        have h := Except.ok.inj h
        have h1 := congrArg Prod.fst h
        have h2 := congrArg Prod.snd h
        dsimp only at h1 h2
        subst h1 h2 hr
        exact ⟨p, t, ref, f, g, rfl, rfl, lift_ok hf, lift_ok hg, rfl, lift_ok hc, ⟨rfl, rfl, rfl, rfl, rfl, rfl, rfl⟩,
          lift_ok hm⟩

/-! ### Where the caches can be seen -/

/-- Pure methane. -/
def methane : FluidModel := ⟨.SRK, fun k => if k = .methane then 1 else 0⟩

/-- Methane with one part in a billion of water. -/
def damp : FluidModel := ⟨.SRK, fun k => if k = .methane then 1 else if k = .water then 1 / 10 ^ 9 else 0⟩

/-- A system with its components, pressure and temperature. Its flash to an enthalpy stays at the temperature it starts
from. -/
def toy : Backend (List (String × ℚ) × ℚ × ℚ) where
  system _ l := .ok (l, 101325 / 10 ^ 5, 28815 / 100)
  tp s p t := .ok (s.1, p, t)
  ph s p _ := .ok (s.1, p, s.2.2)
  gas s := .ok s
  components s := s.1
  temperature s := some s.2.2
  pressure s := some s.2.1
  density s := some s.1.length
  enthalpy _ := some 0
  z _ := some 1
  kappa _ := some 1
  vapor _ := some 1

/-- The pressure of an answer. -/
def pressureOf (o : Except FErr Result) : Option ℚ :=
  match o with
  | .ok r => r.pressure
  | .error _ => none

/-- The temperature of an answer. -/
def temperatureOf (o : Except FErr Result) : Option ℚ :=
  match o with
  | .ok r => r.temperature
  | .error _ => none

/-- A density, if there is one. -/
def densityValue (o : Except FErr (Option ℚ)) : Option ℚ :=
  match o with
  | .ok d => d
  | .error _ => none

/-- **C106, finding.** An answer may be that of an earlier request with another pressure. -/
theorem C106_shared : ∃ (B : Backend (List (String × ℚ) × ℚ × ℚ)) (ops : List Op) (m : FluidModel) (p t : ℚ),
    pressureOf (flashPt B m p t (after B 512 100000 ops)).2 ≠ pressureOf (plainPt B m p t) :=
  ⟨toy, [.pt methane 10 300], methane, 10 + 1 / 10 ^ 7, 300, by decide +kernel⟩

/-- **C106, finding.** The temperature to start from is no part of the key: where NeqSim's flash depends on it, the
answer is that of the first guess. -/
theorem C106_guess : ∃ (B : Backend (List (String × ℚ) × ℚ × ℚ)) (ops : List Op) (m : FluidModel) (p h t : ℚ),
    temperatureOf (flashPh B m p h (some t) (after B 512 100000 ops)).2 ≠ temperatureOf (plainPh B m p h (some t)) :=
  ⟨toy, [.ph methane 10 0 (some 300)], methane, 10, 0, 350, by decide +kernel⟩

/-- **C106, finding.** A component below half of 1e-8 may be left out or added: the reference fluid is that of the first
model with the same rounded fractions. -/
theorem C106_trace : ∃ (B : Backend (List (String × ℚ) × ℚ × ℚ)) (ops : List Op) (m : FluidModel),
    densityValue (standardDensity B m (after B 512 100000 ops)).2 ≠ densityValue (densityOf B (plainRef B m)) :=
  ⟨toy, [.density methane], damp, by decide +kernel⟩

/-- **C106, finding.** The size 0, documented as disabling a cache, is read as "not given": the default size is used,
and answers are shared. -/
theorem C106_cli_zero : cliConfig (some 0) (some 0) = some Config.default ∧
    ∃ (B : Backend (List (String × ℚ) × ℚ × ℚ)) (ops : List Op) (m : FluidModel) (p t : ℚ),
      pressureOf (flashPt B m p t (after B Config.default.refs Config.default.flashes ops)).2 ≠
        pressureOf (plainPt B m p t) :=
  ⟨by decide +kernel, C106_shared⟩

/-! ## Examples -/

/-- Requests a millionth apart share an answer; a hundred-thousandth apart they do not. -/
example : pressureOf (flashPt toy methane (10 + 1 / 10 ^ 7) 300 (after toy 4 4 [.pt methane 10 300])).2 = some 10 ∧
    pressureOf (flashPt toy methane (10 + 1 / 10 ^ 5) 300 (after toy 4 4 [.pt methane 10 300])).2 =
      some (10 + 1 / 10 ^ 5) := by decide +kernel

/-- After clearing, or with caches of size 0, the flash is computed. -/
example : pressureOf (flashPt toy methane (10 + 1 / 10 ^ 7) 300 (after toy 4 4 [.pt methane 10 300, .clear])).2 =
      some (10 + 1 / 10 ^ 7) ∧
    pressureOf (flashPt toy methane (10 + 1 / 10 ^ 7) 300 (after toy 0 0 [.pt methane 10 300])).2 =
      some (10 + 1 / 10 ^ 7) := by decide +kernel

/-- With a size of -1 nothing works. -/
example : pressureOf (flashPt toy methane 10 300 (after toy (-1) 4 [])).2 = none ∧
    pressureOf (flashPt toy methane 10 300 (after toy 4 (-1) [])).2 = none := by decide +kernel

/-- The enthalpy asked for is out of reach: the toy always has 0. -/
example : temperatureOf (flashPh toy methane 10 9 none (after toy 4 4 [])).2 = some (28815 / 100) ∧
    temperatureOf (flashPh toy methane 10 11 none (after toy 4 4 [])).2 = none := by decide +kernel

/-- A run whose requests are apart. -/
example : Apart toy (· = methane) (fun op => op = .pt methane 10 300 ∨ op = .pt methane 11 300) where
  models := by rintro _ _ rfl rfl _; exact ⟨rfl, rfl⟩
  pt := by
    rintro m p t m' p' t' (h | h) (h' | h') - hp - <;> cases h <;> cases h' <;>
      first | exact ⟨rfl, rfl⟩ | (exfalso; revert hp; unfold Close; norm_num)
  ph := by rintro _ _ _ _ _ _ _ _ (h | h) <;> cases h
  ofPt := by rintro _ _ _ (h | h) <;> cases h <;> rfl
  ofPh := by rintro _ _ _ _ (h | h) <;> cases h
  ofDensity := by rintro _ (h | h) <;> cases h
  ofLiquid := by rintro _ _ (h | h) <;> cases h
  ofGas := by rintro _ _ _ _ _ (h | h) <;> cases h

/-- Two parts of methane and one of ethane are two thirds and one third. -/
example : (match Composition.normalized (fun k => if k = .methane then 2 else if k = .ethane then 1 else 0) with
    | .ok c => (toNeqsim c).toOption
    | .error _ => none) = some [("methane", 2 / 3), ("ethane", 1 / 3)] := by decide +kernel

/-- Equal parts of methane and CO2 weigh 30.026 g/mol. -/
example : (molarMass fun k => if k = .methane ∨ k = .CO2 then 5 else 0).toOption = some (6005241 / (2 * 10 ^ 8)) := by
  decide +kernel

/-- Sizes: the last configuration before the first use counts. -/
example : wanted none [.configure ⟨1, 2⟩, .call .clear, .configure ⟨3, 4⟩] = some ⟨3, 4⟩ ∧
    cliConfig (some 7) none = some ⟨7, 100000⟩ := by decide +kernel

/-- A rate of 240 Sm3 per day of a gas with density 1 is 10 kg per hour. -/
example : densityValue (toMassRate toy methane 240 (after toy 4 4 [])).2 = some 10 ∧
    densityValue (toStandardRate toy methane 10 (after toy 4 4 [])).2 = some 240 := by decide +kernel

/-- A wet fluid: its standard density is that of its gas, also if the vapour fraction is NaN. -/
example : densityValue (standardDensity { toy with vapor := fun _ => none, gas := fun s => .ok (s.1.take 1, s.2) }
      ⟨.SRK, fun k => if k = .methane ∨ k = .water then 1 else 0⟩ (after toy 4 4 [])).2 = some 1 ∧
    densityValue (standardDensity { toy with vapor := fun _ => some 1, gas := fun s => .ok (s.1.take 1, s.2) }
      ⟨.SRK, fun k => if k = .methane ∨ k = .water then 1 else 0⟩ (after toy 4 4 [])).2 = some 2 := by decide +kernel

end Verif.C106
