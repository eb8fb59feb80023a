import Verif.Props.C38
import Verif.Props.C54
import Verif.Props.C55
import Verif.Props.C73
import Mathlib.Tactic.Linarith

/-!
# C74: a section solution that claims success delivers the target pressure
-/

namespace Verif.C74
open Verif.Process Verif.Finders Verif.Solver Verif.Section
open Verif.C40 (RootWithin Lawful trainPressure)
open Verif.C73 (handlers Closed R slotHandler)

variable {κ : Type} [DecidableEq κ]

/-! ## Specification -/

/-- The last point a root finder tries is the one it returns. -/
def LastIsRoot (roots : Roots) : Prop := ∀ b g x, roots.find b g = .ok x → roots.last b g = x

/-- The shaft, the loops and the choke are different handlers. -/
def Distinct (sec : Sec κ) : Prop :=
  sec.shaft ∉ sec.surgeHandlers ++ sec.controlHandlers ∧
  ∀ c, sec.control = .upstreamChoke c ∨ sec.control = .downstreamChoke c → c ∉ sec.loops

/-- A downstream choke is the last unit, and the only one of its handler. -/
def ChokeLast (sec : Sec κ) : Prop :=
  ∀ c, sec.control = .downstreamChoke c →
    ∃ us, sec.slots = us ++ [.choke c] ∧ ∀ u ∈ us, slotHandler u ≠ some c

/-- Handlers that are not mentioned are as after a reset. -/
def OthersReset (sec : Sec κ) (cs : List (Conf κ)) (st : Settings κ) : Prop :=
  ∀ k ∈ handlers sec, (∀ c ∈ cs, c.handler ≠ k) → st k = 0

/-- The units in front of a compressor do not depend on the loops of later compressors. -/
def Ordered (sec : Sec κ) : Prop :=
  ∀ i pre c, before sec.slots i = some (pre, c) → ∀ u ∈ pre, ∀ k, slotHandler u = some k → k ∈ sec.loops →
    k ∈ sec.loops.take (i + 1)

/-- Between the last compressor and the end there are only ends of recirculation loops. -/
def EndsWithCompressor (sec : Sec κ) : Prop :=
  ∃ pre c post, sec.slots = pre ++ .comp c :: post ∧ before sec.slots (sec.loops.length - 1) = some (pre, c) ∧
    ∀ u ∈ post, ∃ l, u = .split l

/-! ## Lemmas -/

theorem bind_ok {α β : Type} {x : Except PErr α} {f : α → Except PErr β} {b : β} (h : (x >>= f) = .ok b) :
    ∃ a, x = .ok a ∧ f a = .ok b := by
  cases x with
  | error e => cases h
  | ok a => exact ⟨a, rfl, h⟩

theorem lastSetting_cons (k : κ) (c : Conf κ) (cs : List (Conf κ)) :
    C38.lastSetting k (c :: cs) = (C38.lastSetting k cs).or (if c.handler = k then some c else none) := by
  cases h : C38.lastSetting k cs <;> simp [C38.lastSetting, h]

/-- A setting after applying configurations is the last one given for it. -/
theorem applyAll_last (cs : List (Conf κ)) (st : Settings κ) (k : κ) :
    applyAll cs st k = ((C38.lastSetting k cs).map (·.value)).getD (st k) := by
  induction cs generalizing st with
  | nil => rfl
  | cons c cs ih =>
    unfold applyAll
    rw [ih, lastSetting_cons]
    cases h : C38.lastSetting k cs with
    | some d => rfl
    | none =>
      by_cases hk : c.handler = k
      · subst hk
        simp [C73.put_self]
      · simp [hk, C73.put_other _ _ _ _ (Ne.symm hk)]

theorem applyAll_append (a b : List (Conf κ)) (st : Settings κ) : applyAll (a ++ b) st = applyAll b (applyAll a st) := by
  induction a generalizing st with
  | nil => rfl
  | cons c a ih => exact ih _

theorem lastSetting_merge (a b : List (Conf κ)) (k : κ) :
    C38.lastSetting k (mergeConfigurations a b) = (C38.lastSetting k b).or (C38.lastSetting k a) := by
  rw [← C38.lastOf_pairs, C38.pairs_merge, DictLemmas.lastOf_nodup _ (DictLemmas.setAll_nodup _ _ (by simp)),
    DictLemmas.lookup_setAll, ← C38.pairs_append, DictLemmas.lastOf_append, C38.lastOf_pairs, C38.lastOf_pairs]
  simp

/-- Applying merged configurations is applying one after the other. -/
theorem applyAll_merge (a b : List (Conf κ)) (st : Settings κ) :
    applyAll (mergeConfigurations a b) st = applyAll b (applyAll a st) := by
  funext k
  rw [applyAll_last, lastSetting_merge, applyAll_last b, applyAll_last a]
  cases C38.lastSetting k b <;> rfl

theorem lastSetting_isSome (cs : List (Conf κ)) (k : κ) : (C38.lastSetting k cs).isSome ↔ k ∈ cs.map (·.handler) := by
  induction cs with
  | nil => simp [C38.lastSetting]
  | cons c cs ih =>
    rw [lastSetting_cons]
    cases h : C38.lastSetting k cs with
    | some d => simp only [Option.some_or, Option.isSome_some, List.map_cons, List.mem_cons, true_iff]; exact .inr (ih.mp (by simp [h]))
    | none =>
      have hn : k ∉ cs.map (·.handler) := fun hm => by simpa [h] using ih.mpr hm
      by_cases hk : c.handler = k
      · simp [hk]
      · rw [List.map_cons, List.mem_cons]
        simp only [hk, if_false, Option.none_or, Option.isSome_none, Bool.false_eq_true, false_iff, not_or]
        exact ⟨fun e => hk e.symm, hn⟩

theorem mem_merge (a b : List (Conf κ)) (k : κ) :
    k ∈ (mergeConfigurations a b).map (·.handler) ↔ k ∈ a.map (·.handler) ∨ k ∈ b.map (·.handler) := by
  rw [← lastSetting_isSome, ← lastSetting_isSome, ← lastSetting_isSome, lastSetting_merge]
  cases C38.lastSetting k b <;> simp

/-- What a success consists of. -/
theorem success_parts {env : Env κ} {sec : Sec κ} {value tol : ℚ} {s : Stream} {st st' : Settings κ} {sol : Sol κ}
    (h : findSolution env sec value tol s st = (.ok sol, st')) (hok : sol.failure = none) :
    ∃ fd surge t o, findSpeedSolution env sec value s (resetAll sec.controlHandlers st) = .ok fd ∧
      isFatal fd.failure = false ∧ isTooLow fd.failure = false ∧
      sec.antiSurge env.svc env.roots env.remains s
        ((leave env.remains (sec.shaft :: sec.surgeHandlers) (resetAll sec.controlHandlers st)).put sec.shaft fd.config) =
          (.ok surge, t) ∧ surge.failure = none ∧
      sec.run env.svc (applyAll (⟨sec.shaft, fd.config⟩ :: surge.configuration) t) s = .ok o ∧
      ((|o.props.pressure - value| ≤ tol ∧ sol = ⟨⟨sec.shaft, fd.config⟩ :: surge.configuration, none⟩ ∧
          st' = applyAll (⟨sec.shaft, fd.config⟩ :: surge.configuration) t) ∨
        (tol < |o.props.pressure - value| ∧
          ∃ pc, sec.controlPressure env value tol s (applyAll (⟨sec.shaft, fd.config⟩ :: surge.configuration) t) =
            (.ok pc, st') ∧ pc.failure = none ∧
          sol.configuration = mergeConfigurations (⟨sec.shaft, fd.config⟩ :: surge.configuration) pc.configuration)) := by
  unfold findSolution at h
  cases hE : findSolutionE env sec value tol s st with
  | mk r st1 =>
  rw [hE] at h
  cases r with
  | error e =>
    dsimp only at h
    cases hca : caught e with
    | none => rw [hca] at h; simp at h
    | some fl =>
      rw [hca] at h
      simp only [Prod.mk.injEq, Except.ok.injEq] at h
      rw [← h.1] at hok
      cases hok
  | ok sol' =>
    simp only [Prod.mk.injEq, Except.ok.injEq] at h
    obtain ⟨rfl, rfl⟩ := h
    unfold findSolutionE at hE
    dsimp only at hE
    cases hs : findSpeedSolution env sec value s (resetAll sec.controlHandlers st) with
    | error e => rw [hs] at hE; simp at hE
    | ok fd =>
      rw [hs] at hE
      dsimp only at hE
      unfold afterSpeed at hE
      cases hf : isFatal fd.failure with
      | true =>
        rw [hf] at hE
        simp only [if_true, Prod.mk.injEq, Except.ok.injEq] at hE
        obtain ⟨rfl, -⟩ := hE
        cases hff : fd.failure with
        | none => rw [hff] at hf; cases hf
        | some fl => rw [hff] at hok; cases hok
      | false =>
        rw [hf] at hE
        simp only [Bool.false_eq_true, if_false] at hE
        cases ha : sec.antiSurge env.svc env.roots env.remains s
            ((leave env.remains (sec.shaft :: sec.surgeHandlers) (resetAll sec.controlHandlers st)).put sec.shaft fd.config) with
        | mk r t =>
        rw [ha] at hE
        cases r with
        | error e => simp at hE
        | ok surge =>
          dsimp only at hE
          cases hsf : surge.failure with
          | some fl =>
            have : (!surge.success) = true := by simp [Solution.success, hsf]
            rw [if_pos this] at hE
            simp only [Prod.mk.injEq, Except.ok.injEq] at hE
            rw [← hE.1] at hok
            simp [hsf] at hok
          | none =>
            have : (!surge.success) = false := by simp [Solution.success, hsf]
            rw [this] at hE
            simp only [Bool.false_eq_true, if_false] at hE
            cases htl : isTooLow fd.failure with
            | true =>
              rw [htl] at hE
              simp only [if_true, Prod.mk.injEq, Except.ok.injEq] at hE
              obtain ⟨rfl, -⟩ := hE
              cases hff : fd.failure with
              | none => rw [hff] at htl; cases htl
              | some fl => rw [hff] at hok; cases hok
            | false =>
              rw [htl] at hE
              simp only [Bool.false_eq_true, if_false] at hE
              unfold finish at hE
              cases hrun : sec.run env.svc (applyAll (⟨sec.shaft, fd.config⟩ :: surge.configuration) t) s with
              | error e => rw [hrun] at hE; simp at hE
              | ok o =>
                rw [hrun] at hE
                dsimp only at hE
                refine ⟨fd, surge, t, o, rfl, hf, htl, ha, hsf, hrun, ?_⟩
                by_cases hclose : |o.props.pressure - value| ≤ tol
                · rw [if_pos (by simpa [close] using hclose)] at hE
                  simp only [Prod.mk.injEq, Except.ok.injEq] at hE
                  exact .inl ⟨hclose, hE.1.symm, hE.2.symm⟩
                · rw [if_neg (by simpa [close] using hclose)] at hE
                  refine .inr ⟨not_le.mp hclose, ?_⟩
                  cases hp : sec.controlPressure env value tol s
                      (applyAll (⟨sec.shaft, fd.config⟩ :: surge.configuration) t) with
                  | mk r t' =>
                  rw [hp] at hE
                  cases r with
                  | error e => simp at hE
                  | ok pc =>
                    simp only [Prod.mk.injEq, Except.ok.injEq] at hE
                    obtain ⟨rfl, rfl⟩ := hE
                    exact ⟨pc, rfl, hok, rfl⟩

theorem recirc_success {tol : ℚ} {n : Nat} {root : RootFinder} {ε : ℚ} (hr : RootWithin root ε) {b : Boundary}
    {value ptol : ℚ} {f : Sim} {x : ℚ} (h : findRecirc tol n root b (some (value, ptol)) f = .ok ⟨x, none⟩) :
    ∃ p, f x = .ok p ∧ |p - value| ≤ max ptol ε := by
  unfold findRecirc at h
  cases hm : recircMin tol n b f with
  | error e => rw [hm] at h; cases e <;> simp at h
  | ok lo =>
    rw [hm] at h
    dsimp only at h
    unfold recircTarget at h
    obtain ⟨hi, -, h⟩ := bind_ok h
    obtain ⟨pLo, hlo, h⟩ := bind_ok h
    split at h
    · simp [pure, Except.pure] at h
    · split at h
      · rename_i hcl
        simp only [pure, Except.pure, Except.ok.injEq, Finding.mk.injEq, and_true] at h
        subst h
        exact ⟨pLo, hlo, le_max_of_le_left (by simpa [close] using hcl)⟩
      · obtain ⟨pHi, hhi, h⟩ := bind_ok h
        split at h
        · rename_i hcl
          simp only [pure, Except.pure, Except.ok.injEq, Finding.mk.injEq, and_true] at h
          subst h
          exact ⟨pHi, hhi, le_max_of_le_left (by simpa [close] using hcl)⟩
        · split at h
          · simp [pure, Except.pure] at h
          · obtain ⟨y, hy, h⟩ := bind_ok h
            simp only [pure, Except.pure, Except.ok.injEq, Finding.mk.injEq, and_true] at h
            subst h
            obtain ⟨-, -, z, hz, hle⟩ := hr _ _ _ hy
            cases hf : f y with
            | error e => rw [hf] at hz; cases hz
            | ok p =>
              rw [hf] at hz
              simp only [Except.map, Except.ok.injEq] at hz
              subst hz
              exact ⟨p, rfl, le_max_of_le_right hle⟩

theorem upstream_success {root : RootFinder} {target : ℚ} {b : Boundary} {f : Sim} {x : ℚ}
    (h : findUpstream root target b f = .ok ⟨x, none⟩) :
    ∃ m e, chokeSearchMax b f = .ok (m, e) ∧ root ⟨b.min, m⟩ (fun x => (f x).map (· - target)) = .ok x := by
  unfold findUpstream at h
  obtain ⟨p0, -, h⟩ := bind_ok h
  split at h
  · obtain ⟨⟨m, e⟩, hm, h⟩ := bind_ok h
    obtain ⟨q, -, h⟩ := bind_ok h
    split at h
    · split at h
      · obtain ⟨fl, -, h⟩ := bind_ok h
        simp [pure, Except.pure] at h
      · simp [pure, Except.pure] at h
    · obtain ⟨y, hy, h⟩ := bind_ok h
      simp only [pure, Except.pure, Except.ok.injEq, Finding.mk.injEq, and_true] at h
      subst h
      exact ⟨m, e, hm, hy⟩
  · cases h

omit [DecidableEq κ] in
theorem pressure_ok {sec : Sec κ} {svc : Service} {st : Settings κ} {s : Stream} {p : ℚ} :
    sec.pressure svc st s = .ok p ↔ ∃ o, sec.run svc st s = .ok o ∧ o.props.pressure = p := by
  unfold Sec.pressure
  cases sec.run svc st s with
  | error e => simp [Except.map]
  | ok o => simp [Except.map]

/-- What a pressure control promises: it sets only its own handlers and the loops, among them its own ones, and at its
setting the pressure is the target, if the section can be run. -/
structure Sound (env : Env κ) (sec : Sec κ) (value δ : ℚ) (s : Stream) (u : Settings κ) (cs : List (Conf κ)) : Prop where
  only : ∀ k ∈ cs.map (·.handler), k ∈ sec.surgeHandlers ++ sec.controlHandlers
  all : ∀ k ∈ sec.controlHandlers, k ∈ cs.map (·.handler)
  close : ∀ p, sec.pressure env.svc (applyAll cs u) s = .ok p → |p - value| ≤ δ
  runs : (∀ c, sec.control ≠ .downstreamChoke c) → ∃ p, sec.pressure env.svc (applyAll cs u) s = .ok p

theorem Sound.of_pressure {env : Env κ} {sec : Sec κ} {value δ : ℚ} {s : Stream} {u : Settings κ} {cs : List (Conf κ)}
    (h1 : ∀ k ∈ cs.map (·.handler), k ∈ sec.surgeHandlers ++ sec.controlHandlers)
    (h2 : ∀ k ∈ sec.controlHandlers, k ∈ cs.map (·.handler)) {p : ℚ}
    (h3 : sec.pressure env.svc (applyAll cs u) s = .ok p) (h4 : |p - value| ≤ δ) : Sound env sec value δ s u cs :=
  ⟨h1, h2, fun q hq => by rw [h3, Except.ok.injEq] at hq; rw [← hq]; exact h4, fun _ => ⟨p, h3⟩⟩

theorem common_sound {env : Env κ} {sec : Sec κ} {l : κ} (hcon : sec.control = .commonAsv l) {ε : ℚ}
    (hr : RootWithin env.roots.find ε) {value tol : ℚ} {s : Stream} {u u' : Settings κ} {pc : Sol κ}
    (h : controlCommon env.svc env.roots env.remains sec l value tol s u = (.ok pc, u')) (hok : pc.failure = none) :
    Sound env sec value (max tol ε) s u pc.configuration := by
  unfold controlCommon at h
  cases hb : sec.range env.svc (u.put l 0) s 0 with
  | error e => rw [hb] at h; simp at h
  | ok b =>
    rw [hb] at h
    dsimp only at h
    cases hf : findRecirc (1 / 100) 20 env.roots.find b (some (value, tol)) (fun x => sec.pressure env.svc (u.put l x) s) with
    | error e => rw [hf] at h; simp at h
    | ok fd =>
      obtain ⟨x, fl⟩ := fd
      rw [hf] at h
      simp only [Prod.mk.injEq, Except.ok.injEq] at h
      obtain ⟨rfl, -⟩ := h
      have : fl = none := by simpa using hok
      subst this
      obtain ⟨p, hp, hle⟩ := recirc_success hr hf
      exact .of_pressure (by simp [Sec.surgeHandlers, hcon]) (by simp [Sec.controlHandlers, hcon]) hp hle

theorem rate_sound {env : Env κ} {sec : Sec κ} (hc : Closed sec) (hcon : sec.control = .asvRate) {ε : ℚ}
    (hr : RootWithin env.roots.find ε) {value δ : ℚ} (hδ : ε ≤ δ) {s : Stream} {u u' : Settings κ} {pc : Sol κ}
    (h : controlRate env.svc env.roots env.remains sec value s u = (.ok pc, u')) (hok : pc.failure = none) :
    Sound env sec value δ s u pc.configuration := by
  unfold controlRate at h
  have hoth : ∀ k, k ∉ sec.loops → (minAchievable env.svc sec s (resetAll sec.loops u)).2 k = u k := by
    intro k hk
    have h1 := C73.sweep_other env.svc sec s (·.max) k sec.loops 0 (resetAll sec.loops u) hk
    rw [C73.resetAll_not_mem _ _ _ hk] at h1
    unfold minAchievable
    generalize sweep env.svc sec s (·.max) 0 sec.loops (resetAll sec.loops u) = a at h1 ⊢
    obtain ⟨a1, a2⟩ := a
    cases a1 with
    | error e => exact h1
    | ok cs =>
      dsimp only at h1 ⊢
      cases sec.pressure env.svc a2 s with
      | error e => exact h1
      | ok p => dsimp only; rw [C73.resetAll_not_mem _ _ _ hk]; exact h1
  generalize minAchievable env.svc sec s (resetAll sec.loops u) = a at h hoth
  obtain ⟨a1, v⟩ := a
  cases a1 with
  | error e => simp at h
  | ok cp =>
    obtain ⟨cs0, p0⟩ := cp
    dsimp only at h hoth
    by_cases hp : p0 > value
    · rw [if_pos hp] at h
      simp only [Prod.mk.injEq, Except.ok.injEq] at h
      rw [← h.1] at hok
      cases hok
    · rw [if_neg hp] at h
      cases hx : env.roots.find ⟨0, 1⟩ (fun x => (outletAt env.svc sec s v x).map (· - value)) with
      | error e => rw [hx] at h; simp at h
      | ok x =>
        rw [hx] at h
        obtain ⟨-, -, y, hy, hle⟩ := hr _ _ _ hx
        dsimp only at h hy
        unfold outletAt at hy
        have hsw := C73.sweep_handlers env.svc sec s (atFraction x) sec.loops 0 (resetAll sec.loops v)
        change ∀ cs, (fromFraction env.svc sec s v x).1 = .ok cs → _ ∧ (fromFraction env.svc sec s v x).2 = _ at hsw
        generalize fromFraction env.svc sec s v x = w at h hy hsw
        obtain ⟨w1, w2⟩ := w
        cases w1 with
        | error e => simp at h
        | ok cs =>
          simp only [Prod.mk.injEq, Except.ok.injEq] at h
          obtain ⟨rfl, rfl⟩ := h
          obtain ⟨h1, h2⟩ := hsw cs rfl
          dsimp only at hy h2 ⊢
          have hagree : R sec [] (applyAll cs w2) (applyAll cs u) := by
            intro k _ _
            by_cases hk : k ∈ cs.map (·.handler)
            · exact C73.applyAll_mem _ _ _ _ hk
            · rw [C73.applyAll_not_mem _ _ _ hk, C73.applyAll_not_mem _ _ _ hk, h2, C73.applyAll_not_mem _ _ _ hk]
              rw [h1] at hk
              rw [C73.resetAll_not_mem _ _ _ hk, hoth k hk]
          rw [C73.pressure_congr hc env.svc hagree] at hy
          cases hq : sec.pressure env.svc (applyAll cs u) s with
          | error e => rw [hq] at hy; cases hy
          | ok p =>
            rw [hq] at hy
            simp only [Except.map, Except.ok.injEq] at hy
            subst hy
            refine .of_pressure ?_ ?_ hq (hle.trans hδ)
            · intro k hk; rw [h1] at hk; rw [List.mem_append]; left; simpa [Sec.surgeHandlers, hcon] using hk
            · intro k hk; rw [h1]; simpa [Sec.controlHandlers, hcon] using hk

theorem upstream_sound {env : Env κ} {sec : Sec κ} (hc : Closed sec) {c : κ} (hcon : sec.control = .upstreamChoke c)
    (hd : c ∉ sec.loops) {ε : ℚ} (hr : RootWithin env.roots.find ε) (hl : LastIsRoot env.roots) {value δ : ℚ}
    (hδ : ε ≤ δ) {s : Stream} {u u' : Settings κ} {pc : Sol κ}
    (h : controlUpstream env.svc env.roots env.remains sec c value s u = (.ok pc, u')) (hok : pc.failure = none) :
    Sound env sec value δ s u pc.configuration := by
  have hsurge : sec.surgeHandlers = sec.loops := by simp [Sec.surgeHandlers, hcon]
  unfold controlUpstream at h
  cases hf : findUpstream env.roots.find value (upstreamBound s)
      (fun x => (chokeFunc env.svc env.roots env.remains sec c s u x).1) with
  | error e => rw [hf] at h; simp at h
  | ok fd =>
    obtain ⟨x, fl⟩ := fd
    rw [hf] at h
    have hfl : fl = none := by
      cases fl with
      | none => rfl
      | some f =>
        exfalso
        dsimp only at h
        generalize chokeFunc env.svc env.roots env.remains sec c s u (upstreamLast env.roots value (upstreamBound s)
          (fun x => (chokeFunc env.svc env.roots env.remains sec c s u x).1) ⟨x, some f⟩) = a at h
        obtain ⟨a1, a2, a3⟩ := a
        cases a2 with
        | error e => simp at h
        | ok cs =>
          simp only [Prod.mk.injEq, Except.ok.injEq] at h
          rw [← h.1] at hok
          cases hok
    subst hfl
    obtain ⟨m, e, hm, hx⟩ := upstream_success hf
    have hlast : upstreamLast env.roots value (upstreamBound s)
        (fun x => (chokeFunc env.svc env.roots env.remains sec c s u x).1) ⟨x, none⟩ = x := by
      unfold upstreamLast
      rw [hm]
      exact hl _ _ _ hx
    dsimp only at h
    rw [hlast] at h
    obtain ⟨-, -, y, hy, hle⟩ := hr _ _ _ hx
    unfold chokeFunc at h hy
    obtain ⟨-, -, hh⟩ := C73.antiSurge_congr hc env.svc env.roots env.remains env.remains s (u.put c x) (u.put c x)
      (fun _ _ _ => rfl)
    have hoth : ∀ k, k ∉ sec.loops → (sec.antiSurge env.svc env.roots env.remains s (u.put c x)).2 k = (u.put c x) k := by
      intro k hk
      unfold Sec.antiSurge
      rw [hcon]
      exact C73.individual_other env.svc sec s (u.put c x) k hk
    generalize sec.antiSurge env.svc env.roots env.remains s (u.put c x) = a at h hy hh hoth
    obtain ⟨a1, t⟩ := a
    cases a1 with
    | error e => simp at h
    | ok surge =>
      have hh := hh surge rfl
      rw [hsurge] at hh
      simp only [Prod.mk.injEq, Except.ok.injEq] at h
      obtain ⟨rfl, -⟩ := h
      dsimp only at hy hoth ⊢
      have hagree : R sec [] (applyAll surge.configuration t) (applyAll (surge.configuration ++ [⟨c, x⟩]) u) := by
        intro k _ _
        rw [applyAll_append]
        change _ = (applyAll surge.configuration u).put c x k
        by_cases hkc : k = c
        · subst hkc
          rw [C73.put_self, C73.applyAll_not_mem _ _ _ (by rw [hh]; exact hd), hoth k hd, C73.put_self]
        · rw [C73.put_other _ _ _ _ hkc]
          by_cases hk : k ∈ surge.configuration.map (·.handler)
          · exact C73.applyAll_mem _ _ _ _ hk
          · rw [C73.applyAll_not_mem _ _ _ hk, C73.applyAll_not_mem _ _ _ hk]
            rw [hh] at hk
            rw [hoth k hk, C73.put_other _ _ _ _ hkc]
      rw [C73.pressure_congr hc env.svc hagree] at hy
      cases hq : sec.pressure env.svc (applyAll (surge.configuration ++ [⟨c, x⟩]) u) s with
      | error e => rw [hq] at hy; cases hy
      | ok p =>
        rw [hq] at hy
        simp only [Except.map, Except.ok.injEq] at hy
        subst hy
        refine .of_pressure ?_ ?_ hq (hle.trans hδ)
        · intro k hk
          rw [List.map_append, hh] at hk
          simpa [hsurge, Sec.controlHandlers, hcon] using hk
        · intro k hk
          have : k = c := by simpa [Sec.controlHandlers, hcon] using hk
          simp [this]

theorem downstream_sound {env : Env κ} (hlaw : Lawful env.svc) {sec : Sec κ} {c : κ}
    (hcon : sec.control = .downstreamChoke c) (hcl : ChokeLast sec) (hsh : sec.shaft ≠ c) {value tol δ : ℚ} (hv : 0 ≤ value)
    (ht : 0 ≤ tol) (hδ : tol ≤ δ) {s o : Stream} {u u' : Settings κ} (ho : sec.run env.svc u s = .ok o) {pc : Sol κ}
    (h : controlDownstream env.svc sec c value tol s u = (.ok pc, u')) (hok : pc.failure = none) :
    Sound env sec value δ s u pc.configuration := by
  obtain ⟨us, hus, hn⟩ := hcl c hcon
  have hunits : ∀ x, us.map (Slot.unit sec.shaft (u.put c x)) = us.map (Slot.unit sec.shaft u) := by
    intro x
    refine List.map_congr_left fun v hv => ?_
    have := hn v hv
    cases v with
    | fixed w => rfl
    | mix l => simp only [Slot.unit]; rw [C73.put_other _ _ _ _ fun e => this (by simp [slotHandler, e])]
    | split l => simp only [Slot.unit]; rw [C73.put_other _ _ _ _ fun e => this (by simp [slotHandler, e])]
    | choke l => simp only [Slot.unit]; rw [C73.put_other _ _ _ _ fun e => this (by simp [slotHandler, e])]
    | comp w => simp only [Slot.unit]; rw [C73.put_other _ _ _ _ hsh]
  have hf : (fun x => sec.pressure env.svc (u.put c x) s) = trainPressure env.svc (us.map (Slot.unit sec.shaft u)) s := by
    funext x
    unfold Sec.pressure Sec.run trainPressure
    rw [hus, List.map_append, hunits]
    simp [Slot.unit, C73.put_self]
  have hrun : ∃ o1, runUnits env.svc (us.map (Slot.unit sec.shaft u)) s = .ok o1 := by
    unfold Sec.run at ho
    rw [hus, List.map_append] at ho
    simp only [List.map_cons, List.map_nil, Slot.unit] at ho
    rw [C40.run_choke] at ho
    cases hr : runUnits env.svc (us.map (Slot.unit sec.shaft u)) s with
    | error e => rw [hr] at ho; cases ho
    | ok o1 => exact ⟨o1, rfl⟩
  obtain ⟨o1, ho1⟩ := hrun
  obtain ⟨fd, hfd, -, -, -, hgood, -⟩ := C40.C40_downstream env.svc hlaw _ s o1 ho1 value tol hv ht
  unfold controlDownstream at h
  rw [hf, hfd] at h
  simp only [Prod.mk.injEq, Except.ok.injEq] at h
  obtain ⟨rfl, -⟩ := h
  refine ⟨by simp [Sec.controlHandlers, hcon], by simp [Sec.controlHandlers, hcon], ?_, fun hne => absurd hcon (hne c)⟩
  intro p hp
  have hp : trainPressure env.svc (us.map (Slot.unit sec.shaft u)) s fd.config = .ok p := by rw [← hf]; exact hp
  exact (hgood (by simpa using hok) p hp).1.trans hδ

theorem control_sound {sec : Sec κ} (hc : Closed sec) (hd : Distinct sec) (hcl : ChokeLast sec) (env : Env κ)
    (hlaw : Lawful env.svc) {ε : ℚ} (hr : RootWithin env.roots.find ε)
    (hl : ∀ c, sec.control = .upstreamChoke c → LastIsRoot env.roots) (hna : sec.control ≠ .asvPressure) {value tol : ℚ}
    (hv : 0 ≤ value) (ht : 0 ≤ tol) {s o : Stream} {u u' : Settings κ} (ho : sec.run env.svc u s = .ok o) {pc : Sol κ}
    (hpc : sec.controlPressure env value tol s u = (.ok pc, u')) (hpf : pc.failure = none) :
    Sound env sec value (max tol ε) s u pc.configuration := by
  unfold Sec.controlPressure at hpc
  cases hcon : sec.control with
  | downstreamChoke c =>
    rw [hcon] at hpc
    exact downstream_sound hlaw hcon hcl (fun e => hd.1 (by simp [Sec.controlHandlers, hcon, e])) hv ht
      (le_max_left _ _) ho hpc hpf
  | upstreamChoke c =>
    rw [hcon] at hpc
    exact upstream_sound hc hcon (hd.2 c (.inl hcon)) hr (hl c hcon) (le_max_right _ _) hpc hpf
  | commonAsv l => rw [hcon] at hpc; exact common_sound hcon hr hpc hpf
  | asvRate => rw [hcon] at hpc; exact rate_sound hc hcon hr (le_max_right _ _) hpc hpf
  | asvPressure => exact absurd hcon hna

/-! ## Property -/

/-- **Delivery.** With pressure control by a choke, a common recirculation loop or recirculation rates: if the solver
reports success, only handlers of the section are set, the speed is within the bounds of the shaft, and applying the configuration, to whatever settings with
the handlers not mentioned reset (those the solver leaves are such), gives the target pressure at the outlet, within
the tolerance of the target or of the root finder. Except for a downstream choke, the section can be run with it. -/
theorem C74_delivers {sec : Sec κ} (hc : Closed sec) (hd : Distinct sec) (hcl : ChokeLast sec) (env : Env κ)
    (hlaw : Lawful env.svc) {ε : ℚ} (hr : RootWithin env.roots.find ε)
    (hl : ∀ c, sec.control = .upstreamChoke c → LastIsRoot env.roots) (hb : sec.bound.min ≤ sec.bound.max)
    (hna : sec.control ≠ .asvPressure) {value tol : ℚ} (hv : 0 ≤ value) (ht : 0 ≤ tol) {s : Stream}
    {st st' : Settings κ} {sol : Sol κ} (h : findSolution env sec value tol s st = (.ok sol, st'))
    (hok : sol.failure = none) :
    (∀ c ∈ sol.configuration, c.handler ∈ handlers sec) ∧
    (∃ n, sol.getConfiguration sec.shaft = .ok n ∧ sec.bound.min ≤ n ∧ n ≤ sec.bound.max ∧
      ∀ w, applyAll sol.configuration w sec.shaft = n) ∧
    OthersReset sec sol.configuration st' ∧
    ∀ w, OthersReset sec sol.configuration w →
      (∀ o, sec.run env.svc (applyAll sol.configuration w) s = .ok o → |o.props.pressure - value| ≤ max tol ε) ∧
      ((∀ c, sec.control ≠ .downstreamChoke c) → ∃ o, sec.run env.svc (applyAll sol.configuration w) s = .ok o) := by
  obtain ⟨fd, surge, t, o, hs, -, -, ha, hsf, hrun, hcase⟩ := success_parts h hok
  obtain ⟨hlo, hhi, -⟩ := C55.C55_find _ _ _ ε hr _ _ _ hb _ hs
  obtain ⟨-, -, hh⟩ := C73.antiSurge_congr hc env.svc env.roots env.remains env.remains s _ _
    (show R sec sec.surgeHandlers _ _ from fun _ _ _ => rfl)
  have hh := hh surge (by rw [ha])
  have hoth : ∀ k, k ∉ sec.shaft :: sec.surgeHandlers → k ∈ handlers sec → t k = 0 := by
    intro k hk hm
    rw [List.mem_cons, not_or] at hk
    have h1 : t k = ((leave env.remains (sec.shaft :: sec.surgeHandlers) (resetAll sec.controlHandlers st)).put
        sec.shaft fd.config) k := by
      have := C73.antiSurge_other env.svc env.roots env.remains sec s ((leave env.remains (sec.shaft :: sec.surgeHandlers)
        (resetAll sec.controlHandlers st)).put sec.shaft fd.config) k hk.2
      rw [ha] at this
      exact this
    rw [h1, C73.put_other _ _ _ _ hk.1, C73.leave_not_mem _ _ _ _ (by simp [hk.1, hk.2])]
    refine C73.resetAll_mem _ _ _ ?_
    unfold handlers at hm
    rw [List.mem_cons, List.mem_append] at hm
    tauto
  generalize hconfs : (⟨sec.shaft, fd.config⟩ :: surge.configuration : List (Conf κ)) = confs at *
  have hkeys : confs.map (·.handler) = sec.shaft :: sec.surgeHandlers := by rw [← hconfs, List.map_cons, hh]
  have hlast : C38.lastSetting sec.shaft confs = some ⟨sec.shaft, fd.config⟩ := by
    have hn : C38.lastSetting sec.shaft surge.configuration = none := by
      rw [← Option.not_isSome_iff_eq_none, lastSetting_isSome, hh]
      exact fun hm => hd.1 (List.mem_append_left _ hm)
    rw [← hconfs]
    rw [lastSetting_cons, hn]
    simp
  have hbase : ∀ k ∈ handlers sec, k ∉ confs.map (·.handler) → t k = 0 := fun k hk hn => by
    rw [hkeys] at hn
    exact hoth k hn hk
  rcases hcase with ⟨hclose, rfl, rfl⟩ | ⟨-, pc, hpc, hpf, hsol⟩
  · have hw : ∀ w, OthersReset sec confs w → R sec [] (applyAll confs w) (applyAll confs t) := by
      intro w hw k hk _
      by_cases hm : k ∈ confs.map (·.handler)
      · exact C73.applyAll_mem _ _ _ _ hm
      · rw [C73.applyAll_not_mem _ _ _ hm, C73.applyAll_not_mem _ _ _ hm, hbase k hk hm]
        refine hw k hk fun c hcm e => hm ?_
        rw [← e]
        exact List.mem_map_of_mem hcm
    have hin : ∀ c ∈ confs, c.handler ∈ handlers sec := by
      intro c hcm
      have : c.handler ∈ confs.map (·.handler) := List.mem_map_of_mem hcm
      rw [hkeys] at this
      unfold handlers
      rw [List.mem_cons, List.mem_append]
      rw [List.mem_cons] at this
      tauto
    refine ⟨hin, ⟨fd.config, ?_, hlo, hhi, fun w => by rw [applyAll_last, hlast]; rfl⟩, ?_, ?_⟩
    · rw [← hconfs]; simp [Solution.getConfiguration]
    · intro k hk hn
      have hm : k ∉ confs.map (·.handler) := by
        intro hm
        obtain ⟨c, hcm, e⟩ := List.mem_map.mp hm
        exact hn c hcm e
      rw [C73.applyAll_not_mem _ _ _ hm, hbase k hk hm]
    · intro w hwr
      dsimp only at hwr ⊢
      rw [C73.run_congr hc env.svc (hw w hwr), hrun]
      refine ⟨?_, fun _ => ⟨o, rfl⟩⟩
      intro o' ho'
      rw [Except.ok.injEq] at ho'
      subst ho'
      exact le_max_of_le_left hclose
  · have hsound : Sound env sec value (max tol ε) s (applyAll confs t) pc.configuration :=
      control_sound hc hd hcl env hlaw hr hl hna hv ht hrun hpc hpf
    have hmem : ∀ k, k ∈ sol.configuration.map (·.handler) ↔
        k ∈ confs.map (·.handler) ∨ k ∈ pc.configuration.map (·.handler) := fun k => by rw [hsol, mem_merge]
    have hnot : ∀ k, (∀ c ∈ sol.configuration, c.handler ≠ k) → k ∉ sol.configuration.map (·.handler) := by
      intro k hn hm
      obtain ⟨c, hcm, e⟩ := List.mem_map.mp hm
      exact hn c hcm e
    have hw : ∀ w, OthersReset sec sol.configuration w →
        R sec [] (applyAll sol.configuration w) (applyAll pc.configuration (applyAll confs t)) := by
      intro w hw k hk _
      rw [hsol, applyAll_merge]
      by_cases hm : k ∈ pc.configuration.map (·.handler)
      · exact C73.applyAll_mem _ _ _ _ hm
      · rw [C73.applyAll_not_mem _ _ _ hm, C73.applyAll_not_mem _ _ _ hm]
        by_cases hm' : k ∈ confs.map (·.handler)
        · exact C73.applyAll_mem _ _ _ _ hm'
        · rw [C73.applyAll_not_mem _ _ _ hm', C73.applyAll_not_mem _ _ _ hm', hbase k hk hm']
          refine hw k hk fun c hcm e => ?_
          have : k ∈ sol.configuration.map (·.handler) := by rw [← e]; exact List.mem_map_of_mem hcm
          rw [hmem] at this
          tauto
    have hin : ∀ c ∈ sol.configuration, c.handler ∈ handlers sec := by
      intro c hcm
      have hk := (hmem c.handler).mp (List.mem_map_of_mem hcm)
      rw [hkeys] at hk
      have := hsound.only c.handler
      unfold handlers
      rw [List.mem_append] at this
      rw [List.mem_cons, List.mem_append]
      rw [List.mem_cons] at hk
      tauto
    have hn : C38.lastSetting sec.shaft pc.configuration = none := by
      rw [← Option.not_isSome_iff_eq_none, lastSetting_isSome]
      exact fun hm => hd.1 (hsound.only _ hm)
    refine ⟨hin, ⟨fd.config, ?_, hlo, hhi, fun w => by rw [applyAll_last, hsol, lastSetting_merge, hn, hlast]; rfl⟩, ?_, ?_⟩
    · have := C38.C38_value confs pc.configuration sol.failure sec.shaft
      rw [hn, hlast] at this
      obtain ⟨sc, sf⟩ := sol
      dsimp only at hsol
      subst hsol
      exact this
    · intro k hk hn
      exfalso
      have := hnot k hn
      rw [hmem, not_or, hkeys] at this
      unfold handlers at hk
      rw [List.mem_cons, List.mem_append] at hk
      rw [List.mem_cons] at this
      have := hsound.all k
      tauto
    · intro w hwr
      rw [C73.run_congr hc env.svc (hw w hwr)]
      refine ⟨?_, fun hne => ?_⟩
      · intro o' ho'
        exact hsound.close _ (pressure_ok.mpr ⟨o', ho', rfl⟩)
      · obtain ⟨p, hp⟩ := hsound.runs hne
        obtain ⟨o', ho', -⟩ := pressure_ok.mp hp
        exact ⟨o', ho'⟩

/-! ## Stage pressures -/

theorem recircLast_root {roots : Roots} (hl : LastIsRoot roots) {b : Boundary} {value : ℚ} {f : Sim} {x : ℚ}
    (h : findRecirc (1 / 100) 20 roots.find b (some (value, pressureTol)) f = .ok ⟨x, none⟩) :
    recircLast roots b value f ⟨x, none⟩ = x := by
  unfold findRecirc at h
  unfold recircLast
  cases hm : recircMin (1 / 100) 20 b f with
  | error e => rfl
  | ok lo =>
    rw [hm] at h
    dsimp only at h
    unfold recircTarget at h
    obtain ⟨hi, hhi, h⟩ := bind_ok h
    obtain ⟨pLo, hlo, h⟩ := bind_ok h
    rw [hhi]
    dsimp only
    rw [hlo]
    cases hf : f hi with
    | error e => rfl
    | ok pHi =>
      dsimp only
      split
      · rfl
      · rename_i hncl
        simp only [Bool.or_eq_true, not_or, Bool.not_eq_true] at hncl
        rw [hncl.1] at h
        split at h
        · simp [pure, Except.pure] at h
        · simp only [Bool.false_eq_true, if_false] at h
          rw [hf] at h
          obtain ⟨q, hq, h⟩ := bind_ok h
          cases hq
          rw [hncl.2] at h
          simp only [Bool.false_eq_true, if_false] at h
          split at h
          · simp [pure, Except.pure] at h
          · obtain ⟨y, hy, h⟩ := bind_ok h
            simp only [pure, Except.pure, Except.ok.injEq, Finding.mk.injEq, and_true] at h
            subst h
            exact hl _ _ _ hy

theorem stage_local {sec : Sec κ} (hc : Closed sec) (ho : Ordered sec) (svc : Service) {st st' : Settings κ} (s : Stream)
    (i : Nat) (h : ∀ k ∈ handlers sec, (k ∈ sec.loops → k ∈ sec.loops.take (i + 1)) → st k = st' k)
    (hsh : sec.shaft ∉ sec.loops) : sec.stage svc st s i = sec.stage svc st' s i := by
  unfold Sec.stage Sec.runTo
  have hs : st sec.shaft = st' sec.shaft := h _ (C73.shaft_mem sec) fun hm => absurd hm hsh
  cases hb : before sec.slots i with
  | none => rfl
  | some r =>
    obtain ⟨pre, c⟩ := r
    dsimp only
    have : pre.map (Slot.unit sec.shaft st) = pre.map (Slot.unit sec.shaft st') := by
      refine List.map_congr_left fun u hu => ?_
      have hk := ho i pre c hb u hu
      have hm := hc u (C73.before_mem _ _ _ _ hb u hu)
      cases u with
      | fixed u => rfl
      | mix l => simp only [Slot.unit]; rw [h l (hm l rfl) (hk l rfl)]
      | split l => simp only [Slot.unit]; rw [h l (hm l rfl) (hk l rfl)]
      | choke l => simp only [Slot.unit]; rw [h l (hm l rfl) (hk l rfl)]
      | comp c => simp only [Slot.unit]; rw [hs]
    rw [this, hs]

/-- What the loop over the stages returns with success: the loops with rates, such that each stage is at its target. -/
theorem stages_sound {sec : Sec κ} (hc : Closed sec) (ho : Ordered sec) (hn : sec.loops.Nodup) (hsh : sec.shaft ∉ sec.loops)
    (svc : Service) (roots : Roots) (r : Settings κ) {ε : ℚ} (hr : RootWithin roots.find ε) (hl : LastIsRoot roots)
    (target : Nat → ℚ) (s : Stream) :
    ∀ (done todo : List κ) (acc : List (Conf κ)) (st st' u : Settings κ) (sol : Sol κ), sec.loops = done ++ todo →
      acc.map (·.handler) = done → (∀ k ∉ sec.loops, st k = u k) → (∀ k ∈ done, st k = applyAll acc u k) →
      stages svc roots r sec target s done.length todo acc st = (.ok sol, st') → sol.failure = none →
      (∃ more, sol.configuration = acc ++ more ∧ more.map (·.handler) = todo) ∧
      ∀ i, done.length ≤ i → i < sec.loops.length →
        ∃ p, sec.stage svc (applyAll sol.configuration u) s i = .ok p ∧ |p - target i| ≤ max pressureTol ε := by
  intro done todo
  induction todo generalizing done with
  | nil =>
    intro acc st st' u sol hls _ _ _ h _
    unfold stages at h
    simp only [Prod.mk.injEq, Except.ok.injEq] at h
    obtain ⟨rfl, -⟩ := h
    refine ⟨⟨[], by simp, rfl⟩, fun i h1 h2 => ?_⟩
    rw [hls] at h2
    simp at h2
    omega
  | cons l todo ih =>
    intro acc st st' u sol hls hacc hst hdone h hok
    unfold stages at h
    cases hb : sec.range svc st s done.length with
    | error e => rw [hb] at h; simp at h
    | ok b =>
      rw [hb] at h
      dsimp only at h
      cases hf : findRecirc (1 / 100) 20 roots.find b (some (target done.length, pressureTol))
          (fun x => sec.stage svc (st.put l x) s done.length) with
      | error e => rw [hf] at h; simp at h
      | ok fd =>
        obtain ⟨x, fl⟩ := fd
        rw [hf] at h
        cases fl with
        | some fl =>
          simp only [Prod.mk.injEq, Except.ok.injEq] at h
          rw [← h.1] at hok
          cases hok
        | none =>
          dsimp only at h
          rw [recircLast_root hl hf] at h
          have hnd : (done ++ l :: todo).Nodup := by rw [← hls]; exact hn
          have hld : l ∉ done := by
            intro hm
            have := (List.nodup_append.mp hnd).2.2 l hm l (by simp)
            exact this rfl
          have hlm : l ∈ sec.loops := by rw [hls]; simp
          have hset : ∀ k ∈ done ++ [l], (st.put l x) k = applyAll (acc ++ [⟨l, x⟩]) u k := by
            intro k hk
            rw [applyAll_append]
            change _ = (applyAll acc u).put l x k
            by_cases hkl : k = l
            · subst hkl; rw [C73.put_self, C73.put_self]
            · rw [C73.put_other _ _ _ _ hkl, C73.put_other _ _ _ _ hkl]
              exact hdone k (by simpa [hkl] using hk)
          have hrest := ih (done ++ [l]) (acc ++ [⟨l, x⟩]) (st.put l x) st' u sol (by rw [hls]; simp)
            (by simp [hacc]) (fun k hk => by rw [C73.put_other _ _ _ _ (show k ≠ l from fun e => hk (by rw [e]; exact hlm))]; exact hst k hk) hset
            (by rw [List.length_append]; exact h) hok
          obtain ⟨⟨more, hmore, hmk⟩, hrest⟩ := hrest
          refine ⟨⟨⟨l, x⟩ :: more, by rw [hmore]; simp, by simp [hmk]⟩, ?_⟩
          intro i h1 h2
          rcases Nat.lt_or_ge done.length i with hlt | hge
          · exact hrest i (by rw [List.length_append]; exact hlt) h2
          · have hi : i = done.length := by omega
            subst hi
            obtain ⟨p, hp, hle⟩ := recirc_success hr hf
            refine ⟨p, ?_, hle⟩
            rw [← hp]
            refine stage_local hc ho svc s _ ?_ hsh
            intro k _ hk
            rw [hmore]
            by_cases hkl : k ∈ sec.loops
            · have hk := hk hkl
              rw [hls, List.take_append] at hk
              have hk : k ∈ done ++ [l] := by
                rw [List.take_of_length_le (Nat.le_succ _)] at hk
                simpa using hk
              rw [applyAll_append, C73.applyAll_not_mem more, ← hset k hk]
              rw [hmk]
              intro hm
              rw [List.mem_append, List.mem_singleton] at hk
              rw [List.nodup_append] at hnd
              rcases hk with hk | hk
              · exact hnd.2.2 k hk k (List.mem_cons_of_mem _ hm) rfl
              · subst hk
                exact (List.nodup_cons.mp hnd.2.1).1 hm
            · rw [C73.applyAll_not_mem, C73.put_other _ _ _ _ (show k ≠ l from fun e => hkl (by rw [e]; exact hlm)), hst k hkl]
              rw [List.map_append, List.map_append, hacc, hmk]
              intro hm
              apply hkl
              rw [hls]
              simpa using hm

/-- **Stages.** With pressure control by the pressures behind the stages: if the solver reports success and its
configuration is applied, either the outlet is within the tolerance of the target, or the pressure behind each
compressor is within the tolerance of the pressure of its stage. -/
theorem C74_stages {sec : Sec κ} (hc : Closed sec) (hd : Distinct sec) (ho : Ordered sec) (hn : sec.loops.Nodup)
    (hcon : sec.control = .asvPressure) (env : Env κ) {ε : ℚ} (hr : RootWithin env.roots.find ε)
    (hl : LastIsRoot env.roots) {value tol : ℚ} {s : Stream} {st st' : Settings κ} {sol : Sol κ}
    (h : findSolution env sec value tol s st = (.ok sol, st')) (hok : sol.failure = none) (w : Settings κ) :
    (∃ o, sec.run env.svc (applyAll sol.configuration w) s = .ok o ∧ |o.props.pressure - value| ≤ tol) ∨
    ∀ i, i < sec.loops.length → ∃ p, sec.stage env.svc (applyAll sol.configuration w) s i = .ok p ∧
      |p - s.props.pressure * env.ratio (value / s.props.pressure) sec.loops.length ^ (i + 1)| ≤ max pressureTol ε := by
  obtain ⟨fd, surge, t, o, hs, -, -, ha, hsf, hrun, hcase⟩ := success_parts h hok
  obtain ⟨-, -, hh⟩ := C73.antiSurge_congr hc env.svc env.roots env.remains env.remains s _ _
    (show R sec sec.surgeHandlers _ _ from fun _ _ _ => rfl)
  have hh := hh surge (by rw [ha])
  have hsg : sec.surgeHandlers = sec.loops := by simp [Sec.surgeHandlers, hcon]
  have hcg : sec.controlHandlers = sec.loops := by simp [Sec.controlHandlers, hcon]
  have hsh : sec.shaft ∉ sec.loops := fun hm => hd.1 (by rw [hsg]; simp [hm])
  generalize hconfs : (⟨sec.shaft, fd.config⟩ :: surge.configuration : List (Conf κ)) = confs at *
  have hkeys : confs.map (·.handler) = sec.shaft :: sec.loops := by rw [← hconfs, List.map_cons, hh, hsg]
  have hall : ∀ k ∈ handlers sec, k ∈ confs.map (·.handler) := by
    intro k hk
    rw [hkeys]
    unfold handlers at hk
    rw [hsg, hcg] at hk
    simpa using hk
  rcases hcase with ⟨hclose, rfl, rfl⟩ | ⟨-, pc, hpc, hpf, hsol⟩
  · left
    refine ⟨o, ?_, hclose⟩
    rw [← hrun]
    exact C73.run_congr hc env.svc (fun k hk _ => C73.applyAll_mem _ _ _ _ (hall k hk)) s
  · right
    unfold Sec.controlPressure at hpc
    rw [hcon] at hpc
    dsimp only at hpc
    unfold Section.controlPressure at hpc
    have hoth : ∀ k, k ∉ sec.loops → (minAchievable env.svc sec s (resetAll sec.loops (applyAll confs t))).2 k =
        applyAll confs t k := by
      intro k hk
      rw [C73.minAchievable_other _ _ _ _ _ hk, C73.resetAll_not_mem _ _ _ hk]
    generalize minAchievable env.svc sec s (resetAll sec.loops (applyAll confs t)) = a at hpc hoth
    obtain ⟨a1, v⟩ := a
    cases a1 with
    | error e => simp at hpc
    | ok cp =>
      obtain ⟨cs0, p0⟩ := cp
      dsimp only at hpc hoth
      by_cases hp : p0 > value
      · rw [if_pos hp] at hpc
        simp only [Prod.mk.injEq, Except.ok.injEq] at hpc
        rw [← hpc.1] at hpf
        cases hpf
      · rw [if_neg hp] at hpc
        obtain ⟨⟨more, hmore, hmk⟩, hst⟩ := stages_sound hc ho hn hsh env.svc env.roots env.remains hr hl
          (stageTarget env.ratio value s sec.loops.length) s [] sec.loops [] v st' (applyAll confs t) pc rfl rfl
          hoth (by simp) hpc hpf
        intro i hi
        obtain ⟨p, hp, hle⟩ := hst i (Nat.zero_le _) hi
        refine ⟨p, ?_, hle⟩
        rw [← hp]
        rw [hsol, applyAll_merge]
        refine C73.stage_congr hc env.svc ?_ s i
        intro k hk _
        by_cases hm : k ∈ pc.configuration.map (·.handler)
        · exact C73.applyAll_mem _ _ _ _ hm
        · rw [C73.applyAll_not_mem _ _ _ hm, C73.applyAll_not_mem _ _ _ hm]
          exact C73.applyAll_mem _ _ _ _ (hall k hk)

theorem run_splits (svc : Service) (st : Settings κ) (shaft : κ) : ∀ (post : List (Slot κ)) (t o : Stream),
    (∀ u ∈ post, ∃ l, u = .split l) → runUnits svc (post.map (Slot.unit shaft st)) t = .ok o → o.props = t.props := by
  intro post
  induction post with
  | nil => intro t o _ h; cases h; rfl
  | cons u post ih =>
    intro t o hp h
    obtain ⟨l, rfl⟩ := hp u (by simp)
    simp only [List.map_cons, runUnits, Slot.unit, ProcUnit.propagate] at h
    obtain ⟨t1, ht1, h⟩ := bind_ok h
    rw [ih t1 o (fun v hv => hp v (by simp [hv])) h]
    unfold directSplit Stream.withMass Stream.make at ht1
    split at ht1
    · cases ht1
    · cases ht1; rfl

/-- **Delivery by stages.** If moreover nothing but ends of loops comes behind the last compressor, and the roots are
exact, the outlet pressure is the target. -/
theorem C74_stages_outlet {sec : Sec κ} (hc : Closed sec) (hd : Distinct sec) (ho : Ordered sec) (hn : sec.loops.Nodup)
    (hne : sec.loops ≠ []) (he : EndsWithCompressor sec) (hcon : sec.control = .asvPressure) (env : Env κ) {ε : ℚ}
    (hr : RootWithin env.roots.find ε) (hl : LastIsRoot env.roots) {value tol : ℚ} {s : Stream}
    (hp : s.props.pressure ≠ 0)
    (hpow : env.ratio (value / s.props.pressure) sec.loops.length ^ sec.loops.length = value / s.props.pressure)
    {st st' : Settings κ} {sol : Sol κ}
    (h : findSolution env sec value tol s st = (.ok sol, st')) (hok : sol.failure = none) (w : Settings κ) (o : Stream)
    (hrun : sec.run env.svc (applyAll sol.configuration w) s = .ok o) :
    |o.props.pressure - value| ≤ max tol (max pressureTol ε) := by
  rcases C74_stages hc hd ho hn hcon env hr hl h hok w with ⟨o', ho', hle⟩ | hst
  · rw [hrun, Except.ok.injEq] at ho'
    subst ho'
    exact le_max_of_le_left hle
  · have hlen : 0 < sec.loops.length := List.length_pos_iff.mpr hne
    obtain ⟨p, hp', hle⟩ := hst (sec.loops.length - 1) (by omega)
    rw [Nat.sub_add_cancel hlen, hpow, mul_div_cancel₀ _ hp] at hle
    obtain ⟨pre, c, post, hslots, hbef, hpost⟩ := he
    generalize applyAll sol.configuration w = v at *
    unfold Sec.stage Sec.runTo at hp'
    rw [hbef] at hp'
    dsimp only at hp'
    unfold Sec.run at hrun
    rw [hslots, List.map_append, C40.runUnits_append] at hrun
    obtain ⟨t, ht, hrun⟩ := bind_ok hrun
    rw [ht] at hp'
    obtain ⟨⟨c', t'⟩, h1, hp'⟩ := bind_ok hp'
    obtain ⟨t'', h2, h1⟩ := bind_ok h1
    cases h2
    simp only [pure, Except.pure, Except.ok.injEq, Prod.mk.injEq] at h1
    obtain ⟨rfl, rfl⟩ := h1
    obtain ⟨q, hq, hp'⟩ := bind_ok hp'
    simp only [pure, Except.pure, Except.ok.injEq] at hp'
    simp only [List.map_cons, runUnits, Slot.unit, ProcUnit.propagate] at hrun
    dsimp only at hq
    rw [hq] at hrun
    obtain ⟨q', h3, hrun⟩ := bind_ok hrun
    cases h3
    rw [run_splits env.svc v sec.shaft post q o hpost hrun, hp']
    exact le_max_of_le_right hle

/-! ## Failures -/

theorem recirc_unreachable {tol : ℚ} {n : Nat} {root : RootFinder} {b : Boundary} {value ptol : ℚ} {f : Sim}
    {x p v : ℚ} {above : Bool}
    (h : findRecirc tol n root b (some (value, ptol)) f = .ok ⟨x, some (.unreachable p v above)⟩) :
    f x = .ok p ∧ v = value ∧ if above then value < p else p < value := by
  unfold findRecirc at h
  cases hm : recircMin tol n b f with
  | error e => rw [hm] at h; cases e <;> simp at h
  | ok lo =>
    rw [hm] at h
    dsimp only at h
    unfold recircTarget at h
    obtain ⟨hi, -, h⟩ := bind_ok h
    obtain ⟨pLo, hlo, h⟩ := bind_ok h
    split at h
    · rename_i hc
      simp only [pure, Except.pure, Except.ok.injEq, Finding.mk.injEq, Option.some.injEq, Failure.unreachable.injEq] at h
      obtain ⟨rfl, rfl, rfl, rfl⟩ := h
      rw [Bool.and_eq_true] at hc
      exact ⟨hlo, rfl, by simpa using hc.2⟩
    · split at h
      · simp [pure, Except.pure] at h
      · obtain ⟨pHi, hhi, h⟩ := bind_ok h
        split at h
        · simp [pure, Except.pure] at h
        · split at h
          · rename_i hc
            simp only [pure, Except.pure, Except.ok.injEq, Finding.mk.injEq, Option.some.injEq,
              Failure.unreachable.injEq] at h
            obtain ⟨rfl, rfl, rfl, rfl⟩ := h
            rw [Bool.and_eq_true] at hc
            exact ⟨hhi, rfl, by simpa using hc.2⟩
          · obtain ⟨y, -, h⟩ := bind_ok h
            simp [pure, Except.pure] at h

theorem upstream_unreachable {root : RootFinder} {target : ℚ} {b : Boundary} {f : Sim} {x p v : ℚ} {above : Bool}
    (h : findUpstream root target b f = .ok ⟨x, some (.unreachable p v above)⟩) :
    f x = .ok p ∧ v = target ∧ above = true ∧ target < p := by
  unfold findUpstream at h
  obtain ⟨p0, -, h⟩ := bind_ok h
  split at h
  · obtain ⟨⟨m, e⟩, hm, h⟩ := bind_ok h
    obtain ⟨q, hq, h⟩ := bind_ok h
    split at h
    · rename_i hgt
      split at h
      · rename_i e'
        obtain ⟨fl, hfl, h⟩ := bind_ok h
        simp only [pure, Except.pure, Except.ok.injEq, Finding.mk.injEq, Option.some.injEq] at h
        obtain ⟨-, rfl⟩ := h
        unfold failureOf at hfl
        split at hfl <;> simp at hfl
      · simp only [pure, Except.pure, Except.ok.injEq, Finding.mk.injEq, Option.some.injEq,
          Failure.unreachable.injEq] at h
        obtain ⟨rfl, rfl, rfl, rfl⟩ := h
        exact ⟨hq, rfl, rfl, hgt⟩
    · obtain ⟨y, hy, h⟩ := bind_ok h
      simp [pure, Except.pure] at h
  · cases h

theorem downstream_unreachable {value tol : ℚ} {f : Sim} {x p v : ℚ} {above : Bool}
    (h : applyDownstream value tol f = .ok ⟨x, some (.unreachable p v above)⟩) :
    x = 0 ∧ f 0 = .ok p ∧ v = value ∧ above = false ∧ p < value := by
  unfold applyDownstream at h
  obtain ⟨q, hq, h⟩ := bind_ok h
  split at h
  · rename_i hc
    split at h
    · simp [pure, Except.pure] at h
    · rename_i hn
      simp only [pure, Except.pure, Except.ok.injEq, Finding.mk.injEq, Option.some.injEq, Failure.unreachable.injEq] at h
      obtain ⟨rfl, rfl, rfl, rfl⟩ := h
      refine ⟨rfl, hq, rfl, rfl, ?_⟩
      rw [Bool.or_eq_true] at hc
      have := hc.resolve_right hn
      rw [Bool.and_eq_true] at this
      simpa using this.2
  · unfold findDownstream at h
    obtain ⟨q', hq', h⟩ := bind_ok h
    split at h
    · rename_i hlt
      simp only [pure, Except.pure, Except.ok.injEq, Finding.mk.injEq, Option.some.injEq, Failure.unreachable.injEq] at h
      obtain ⟨rfl, rfl, rfl, rfl⟩ := h
      exact ⟨rfl, hq', rfl, rfl, hlt⟩
    · simp [pure, Except.pure] at h

/-- What a report that the target is out of reach consists of. -/
theorem unreachable_parts {env : Env κ} {sec : Sec κ} {value tol : ℚ} {s : Stream} {st st' : Settings κ} {sol : Sol κ}
    {p v : ℚ} {above : Bool} (h : findSolution env sec value tol s st = (.ok sol, st'))
    (hf : sol.failure = some (.finding (.unreachable p v above))) :
    ∃ fd surge t, findSpeedSolution env sec value s (resetAll sec.controlHandlers st) = .ok fd ∧
      sec.antiSurge env.svc env.roots env.remains s
        ((leave env.remains (sec.shaft :: sec.surgeHandlers) (resetAll sec.controlHandlers st)).put sec.shaft fd.config) =
          (.ok surge, t) ∧
      ((fd.failure = some (.unreachable p v above) ∧ above = false ∧
          sol.configuration = ⟨sec.shaft, fd.config⟩ :: surge.configuration) ∨
        ∃ o pc, sec.run env.svc (applyAll (⟨sec.shaft, fd.config⟩ :: surge.configuration) t) s = .ok o ∧
          sec.controlPressure env value tol s (applyAll (⟨sec.shaft, fd.config⟩ :: surge.configuration) t) = (.ok pc, st') ∧
          pc.failure = some (.finding (.unreachable p v above)) ∧
          sol.configuration = mergeConfigurations (⟨sec.shaft, fd.config⟩ :: surge.configuration) pc.configuration) := by
  unfold findSolution at h
  cases hE : findSolutionE env sec value tol s st with
  | mk r st1 =>
  rw [hE] at h
  cases r with
  | error e =>
    exfalso
    dsimp only at h
    cases hca : caught e with
    | none => rw [hca] at h; simp at h
    | some fl =>
      rw [hca] at h
      simp only [Prod.mk.injEq, Except.ok.injEq] at h
      rw [← h.1] at hf
      simp only [Option.some.injEq] at hf
      subst hf
      unfold caught at hca
      split at hca <;> simp at hca
  | ok sol' =>
    simp only [Prod.mk.injEq, Except.ok.injEq] at h
    obtain ⟨rfl, rfl⟩ := h
    unfold findSolutionE at hE
    dsimp only at hE
    cases hs : findSpeedSolution env sec value s (resetAll sec.controlHandlers st) with
    | error e => rw [hs] at hE; simp at hE
    | ok fd =>
      rw [hs] at hE
      dsimp only at hE
      unfold afterSpeed at hE
      cases hfa : isFatal fd.failure with
      | true =>
        exfalso
        rw [hfa] at hE
        simp only [if_true, Prod.mk.injEq, Except.ok.injEq] at hE
        obtain ⟨rfl, -⟩ := hE
        cases hff : fd.failure with
        | none => rw [hff] at hf; cases hf
        | some fl =>
          rw [hff] at hf hfa
          simp only [Option.map_some, Option.some.injEq, SFailure.finding.injEq] at hf
          subst hf
          cases hfa
      | false =>
        rw [hfa] at hE
        simp only [Bool.false_eq_true, if_false] at hE
        cases ha : sec.antiSurge env.svc env.roots env.remains s
            ((leave env.remains (sec.shaft :: sec.surgeHandlers) (resetAll sec.controlHandlers st)).put sec.shaft fd.config) with
        | mk r t =>
        rw [ha] at hE
        cases r with
        | error e => simp at hE
        | ok surge =>
          refine ⟨fd, surge, t, rfl, ha, ?_⟩
          dsimp only at hE
          cases hsf : surge.failure with
          | some fl =>
            exfalso
            have : (!surge.success) = true := by simp [Solution.success, hsf]
            rw [if_pos this] at hE
            simp only [Prod.mk.injEq, Except.ok.injEq] at hE
            rw [← hE.1] at hf
            simp only [hsf, Option.some.injEq] at hf
            subst hf
            unfold Sec.antiSurge at ha
            have hind : ∀ z, individualAntiSurge env.svc sec s z = (.ok surge, t) → False := by
              intro z hz
              unfold individualAntiSurge at hz
              generalize sweep env.svc sec s (·.min) 0 sec.loops (resetAll sec.loops z) = a at hz
              obtain ⟨a1, a2⟩ := a
              cases a1 with
              | error e => simp at hz
              | ok cs =>
                simp only [Prod.mk.injEq, Except.ok.injEq] at hz
                rw [← hz.1] at hsf
                cases hsf
            cases hcon : sec.control with
            | commonAsv l =>
              rw [hcon] at ha
              dsimp only at ha
              unfold commonAntiSurge at ha
              split at ha
              · simp at ha
              · split at ha
                · simp at ha
                · rename_i fd' hfd
                  simp only [Prod.mk.injEq, Except.ok.injEq] at ha
                  rw [← ha.1] at hsf
                  cases hg : fd'.failure with
                  | none => rw [hg] at hsf; cases hsf
                  | some g =>
                    rw [hg] at hsf
                    simp only [Option.map_some, Option.some.injEq, SFailure.finding.injEq] at hsf
                    subst hsf
                    unfold findRecirc at hfd
                    split at hfd <;> simp at hfd <;> rw [← hfd] at hg <;> simp at hg
            | downstreamChoke c => rw [hcon] at ha; exact hind _ ha
            | upstreamChoke c => rw [hcon] at ha; exact hind _ ha
            | asvRate => rw [hcon] at ha; exact hind _ ha
            | asvPressure => rw [hcon] at ha; exact hind _ ha
          | none =>
            have : (!surge.success) = false := by simp [Solution.success, hsf]
            rw [this] at hE
            simp only [Bool.false_eq_true, if_false] at hE
            cases htl : isTooLow fd.failure with
            | true =>
              left
              rw [htl] at hE
              simp only [if_true, Prod.mk.injEq, Except.ok.injEq] at hE
              obtain ⟨rfl, -⟩ := hE
              cases hff : fd.failure with
              | none => rw [hff] at htl; cases htl
              | some fl =>
                rw [hff] at hf htl
                simp only [Option.map_some, Option.some.injEq, SFailure.finding.injEq] at hf
                subst hf
                exact ⟨rfl, by simpa [isTooLow] using htl, rfl⟩
            | false =>
              right
              rw [htl] at hE
              simp only [Bool.false_eq_true, if_false] at hE
              unfold finish at hE
              cases hrun : sec.run env.svc (applyAll (⟨sec.shaft, fd.config⟩ :: surge.configuration) t) s with
              | error e => rw [hrun] at hE; simp at hE
              | ok o =>
                rw [hrun] at hE
                dsimp only at hE
                refine ⟨o, ?_⟩
                split at hE
                · simp only [Prod.mk.injEq, Except.ok.injEq] at hE
                  rw [← hE.1] at hf
                  cases hf
                · cases hp : sec.controlPressure env value tol s
                      (applyAll (⟨sec.shaft, fd.config⟩ :: surge.configuration) t) with
                  | mk r t' =>
                  rw [hp] at hE
                  cases r with
                  | error e => simp at hE
                  | ok pc =>
                    simp only [Prod.mk.injEq, Except.ok.injEq] at hE
                    obtain ⟨rfl, rfl⟩ := hE
                    exact ⟨pc, rfl, rfl, hf, rfl⟩

/-- The pressure named in a report of a pressure control is the one its configuration gives. -/
theorem control_unreachable {env : Env κ} {sec : Sec κ} (hc : Closed sec) (hd : Distinct sec)
    (hna : sec.control ≠ .asvPressure) {value tol : ℚ} {s : Stream} {u u' : Settings κ} {pc : Sol κ} {p v : ℚ}
    {above : Bool} (h : sec.controlPressure env value tol s u = (.ok pc, u'))
    (hf : pc.failure = some (.finding (.unreachable p v above))) :
    (v = value ∧ if above then value < p else p < value) ∧ sec.pressure env.svc (applyAll pc.configuration u) s = .ok p ∧
    (∀ k ∈ sec.controlHandlers, k ∈ pc.configuration.map (·.handler)) ∧
    (∀ k ∈ pc.configuration.map (·.handler), k ∈ sec.surgeHandlers ++ sec.controlHandlers) := by
  have hfail : ∀ fl : Option Failure, fl.map SFailure.finding = some (.finding (.unreachable p v above)) →
      fl = some (.unreachable p v above) := by
    intro fl hfl
    cases fl with
    | none => cases hfl
    | some g => simpa using hfl
  unfold Sec.controlPressure at h
  cases hcon : sec.control with
  | downstreamChoke c =>
    rw [hcon] at h
    dsimp only at h
    unfold controlDownstream at h
    split at h
    · simp at h
    · rename_i fd hfd
      simp only [Prod.mk.injEq, Except.ok.injEq] at h
      obtain ⟨rfl, -⟩ := h
      obtain ⟨x, fl⟩ := fd
      have := hfail _ hf
      dsimp only at this
      subst this
      obtain ⟨rfl, h1, rfl, rfl, h2⟩ := downstream_unreachable hfd
      exact ⟨⟨rfl, by simpa using h2⟩, h1, by simp [Sec.controlHandlers, hcon], by simp [Sec.controlHandlers, hcon]⟩
  | upstreamChoke c =>
    rw [hcon] at h
    dsimp only at h
    unfold controlUpstream at h
    have hdc := hd.2 c (.inl hcon)
    have hsurge : sec.surgeHandlers = sec.loops := by simp [Sec.surgeHandlers, hcon]
    cases hfd : findUpstream env.roots.find value (upstreamBound s)
        (fun x => (chokeFunc env.svc env.roots env.remains sec c s u x).1) with
    | error e => rw [hfd] at h; simp at h
    | ok fd =>
      obtain ⟨x, fl⟩ := fd
      rw [hfd] at h
      dsimp only at h
      have hfl : fl = some (.unreachable p v above) := by
        generalize chokeFunc env.svc env.roots env.remains sec c s u (upstreamLast env.roots value (upstreamBound s)
          (fun x => (chokeFunc env.svc env.roots env.remains sec c s u x).1) ⟨x, fl⟩) = a at h
        obtain ⟨a1, a2, a3⟩ := a
        cases a2 with
        | error e => simp at h
        | ok cs =>
          simp only [Prod.mk.injEq, Except.ok.injEq] at h
          rw [← h.1] at hf
          exact hfail _ hf
      subst hfl
      obtain ⟨h1, rfl, rfl, h2⟩ := upstream_unreachable hfd
      have hlast : upstreamLast env.roots v (upstreamBound s)
          (fun x => (chokeFunc env.svc env.roots env.remains sec c s u x).1) ⟨x, some (.unreachable p v true)⟩ = x := rfl
      rw [hlast] at h
      unfold chokeFunc at h h1
      obtain ⟨-, -, hh⟩ := C73.antiSurge_congr hc env.svc env.roots env.remains env.remains s (u.put c x) (u.put c x)
        (fun _ _ _ => rfl)
      have hoth : ∀ k, k ∉ sec.loops → (sec.antiSurge env.svc env.roots env.remains s (u.put c x)).2 k = (u.put c x) k := by
        intro k hk
        exact C73.antiSurge_other env.svc env.roots env.remains sec s (u.put c x) k (by rw [hsurge]; exact hk)
      generalize sec.antiSurge env.svc env.roots env.remains s (u.put c x) = a at h h1 hh hoth
      obtain ⟨a1, t⟩ := a
      cases a1 with
      | error e => simp at h
      | ok surge =>
        have hh := hh surge rfl
        rw [hsurge] at hh
        simp only [Prod.mk.injEq, Except.ok.injEq] at h
        obtain ⟨rfl, -⟩ := h
        dsimp only at h1 hoth ⊢
        have hagree : R sec [] (applyAll surge.configuration t) (applyAll (surge.configuration ++ [⟨c, x⟩]) u) := by
          intro k _ _
          rw [applyAll_append]
          change _ = (applyAll surge.configuration u).put c x k
          by_cases hkc : k = c
          · subst hkc
            rw [C73.put_self, C73.applyAll_not_mem _ _ _ (by rw [hh]; exact hdc), hoth k hdc, C73.put_self]
          · rw [C73.put_other _ _ _ _ hkc]
            by_cases hk : k ∈ surge.configuration.map (·.handler)
            · exact C73.applyAll_mem _ _ _ _ hk
            · rw [C73.applyAll_not_mem _ _ _ hk, C73.applyAll_not_mem _ _ _ hk]
              rw [hh] at hk
              rw [hoth k hk, C73.put_other _ _ _ _ hkc]
        rw [C73.pressure_congr hc env.svc hagree] at h1
        refine ⟨⟨rfl, by simpa using h2⟩, h1, ?_, ?_⟩
        · intro k hk
          have : k = c := by simpa [Sec.controlHandlers, hcon] using hk
          simp [this]
        · intro k hk
          rw [List.map_append, hh] at hk
          simpa [hsurge, Sec.controlHandlers, hcon] using hk
  | commonAsv l =>
    rw [hcon] at h
    dsimp only at h
    unfold controlCommon at h
    split at h
    · simp at h
    · split at h
      · simp at h
      · rename_i fd hfd
        simp only [Prod.mk.injEq, Except.ok.injEq] at h
        obtain ⟨rfl, -⟩ := h
        obtain ⟨x, fl⟩ := fd
        have := hfail _ hf
        dsimp only at this
        subst this
        obtain ⟨h1, rfl, h2⟩ := recirc_unreachable hfd
        exact ⟨⟨rfl, h2⟩, h1, by simp [Sec.controlHandlers, hcon], by simp [Sec.controlHandlers, hcon]⟩
  | asvRate =>
    rw [hcon] at h
    dsimp only at h
    unfold controlRate minAchievable at h
    have hsw := C73.sweep_handlers env.svc sec s (·.max) sec.loops 0 (resetAll sec.loops u)
    generalize sweep env.svc sec s (·.max) 0 sec.loops (resetAll sec.loops u) = a at h hsw
    obtain ⟨a1, t⟩ := a
    cases a1 with
    | error e => simp at h
    | ok cs =>
      obtain ⟨h1, h2⟩ := hsw cs rfl
      dsimp only at h h2
      cases hp : sec.pressure env.svc t s with
      | error e => rw [hp] at h; simp at h
      | ok p0 =>
        rw [hp] at h
        dsimp only at h
        split at h
        · rename_i hgt
          simp only [Prod.mk.injEq, Except.ok.injEq] at h
          obtain ⟨rfl, -⟩ := h
          simp only [Option.some.injEq, SFailure.finding.injEq, Failure.unreachable.injEq] at hf
          obtain ⟨rfl, rfl, rfl⟩ := hf
          refine ⟨⟨rfl, by simpa using hgt⟩, ?_, ?_, ?_⟩
          · rw [← hp, h2]
            refine C73.pressure_congr hc env.svc ?_ s
            intro k _ _
            dsimp only
            by_cases hk : k ∈ cs.map (·.handler)
            · exact C73.applyAll_mem _ _ _ _ hk
            · rw [C73.applyAll_not_mem _ _ _ hk, C73.applyAll_not_mem _ _ _ hk]
              rw [h1] at hk
              rw [C73.resetAll_not_mem _ _ _ hk]
          · intro k hk; rw [h1]; simpa [Sec.controlHandlers, hcon] using hk
          · intro k hk; rw [h1] at hk; rw [List.mem_append]; left; simpa [Sec.surgeHandlers, hcon] using hk
        · exfalso
          split at h
          · simp at h
          · split at h
            · simp at h
            · simp only [Prod.mk.injEq, Except.ok.injEq] at h
              rw [← h.1] at hf
              cases hf
  | asvPressure => exact absurd hcon hna

/-- **No speed at all.** If the rate is beyond the chart (above its maximum, or below its minimum with full
recirculation) or the inlet pressure too low even at the highest speed, this is what the solver reports, with the
highest speed and no other setting. -/
theorem C74_top_speed {sec : Sec κ} (hc : Closed sec) (env : Env κ) (value tol : ℚ) (s : Stream) (st : Settings κ) (p q : ℚ) :
    ((speedFunc env sec s (fun _ => 0) sec.bound.max).1 = .error (.stonewall p q) →
      (findSolution env sec value tol s st).1 = .ok ⟨[⟨sec.shaft, sec.bound.max⟩], some (.finding (.stonewall p q))⟩) ∧
    ((speedFunc env sec s (fun _ => 0) sec.bound.max).1 = .error (.surge p q) →
      (findSolution env sec value tol s st).1 = .ok ⟨[⟨sec.shaft, sec.bound.max⟩], some (.finding (.surge p q))⟩) ∧
    ((speedFunc env sec s (fun _ => 0) sec.bound.max).1 = .error (.insufficient p q) →
      (findSolution env sec value tol s st).1 =
        .ok ⟨[⟨sec.shaft, sec.bound.max⟩], some (.finding (.insufficient p q))⟩) := by
  have hz : (fun x => (speedFunc env sec s (resetAll sec.controlHandlers st) x).1) =
      fun x => (speedFunc env sec s (fun _ => 0) x).1 := by
    funext x
    refine C73.C73_probe hc env env.remains env.remains s _ _ ?_ x
    intro k hk hn
    refine C73.resetAll_mem _ _ _ ?_
    unfold handlers at hk
    rw [List.mem_cons] at hk hn
    rw [List.mem_append] at hk
    tauto
  refine ⟨fun h => ?_, fun h => ?_, fun h => ?_⟩ <;>
  · unfold findSolution findSolutionE findSpeedSolution
    dsimp only
    rw [hz]
    simp only [findSpeed, h]
    rfl

/-- **Out of reach.** When the solver reports that the target is out of reach, the report names the target and a pressure
on the stated side of it. If it comes from the speed search, the pressure is the outlet pressure at the speed in the
configuration, the largest there is; otherwise it is what the section delivers with the configuration returned. -/
theorem C74_unreachable {sec : Sec κ} (hc : Closed sec) (hd : Distinct sec) (env : Env κ) {ε : ℚ}
    (hr : RootWithin env.roots.find ε) (hb : sec.bound.min ≤ sec.bound.max) (hna : sec.control ≠ .asvPressure)
    {value tol : ℚ} {s : Stream} {st st' : Settings κ} {sol : Sol κ} {p v : ℚ} {above : Bool}
    (h : findSolution env sec value tol s st = (.ok sol, st'))
    (hf : sol.failure = some (.finding (.unreachable p v above))) :
    (v = value ∧ if above then value < p else p < value) ∧
    ((∃ n, above = false ∧ sol.getConfiguration sec.shaft = .ok n ∧ (speedFunc env sec s (fun _ => 0) n).1 = .ok p ∧
        C55.Top (1 / 100000) 20 sec.bound (fun x => (speedFunc env sec s (fun _ => 0) x).1) n) ∨
      ∀ w, OthersReset sec sol.configuration w →
        ∃ o, sec.run env.svc (applyAll sol.configuration w) s = .ok o ∧ o.props.pressure = p) := by
  obtain ⟨fd, surge, t, hs, ha, hcase⟩ := unreachable_parts h hf
  rcases hcase with ⟨hff, rfl, hsol⟩ | ⟨o, pc, hrun, hpc, hpf, hsol⟩
  · obtain ⟨-, -, hm⟩ := C55.C55_find _ _ _ ε hr _ _ _ hb _ hs
    rw [hff] at hm
    obtain ⟨rfl, htop, hp, hlt⟩ := hm
    have hz : (fun x => (speedFunc env sec s (resetAll sec.controlHandlers st) x).1) =
        fun x => (speedFunc env sec s (fun _ => 0) x).1 := by
      funext x
      refine C73.C73_probe hc env env.remains env.remains s _ _ ?_ x
      intro k hk hn
      refine C73.resetAll_mem _ _ _ ?_
      unfold handlers at hk
      rw [List.mem_cons] at hk hn
      rw [List.mem_append] at hk
      tauto
    rw [hz] at htop
    refine ⟨⟨rfl, by simpa using hlt⟩, .inl ⟨fd.config, rfl, ?_, ?_, htop⟩⟩
    · simp [Solution.getConfiguration, hsol]
    · rw [← hp]
      exact (congrFun hz fd.config).symm
  · obtain ⟨h1, h2, h3, h4⟩ := control_unreachable hc hd hna hpc hpf
    refine ⟨h1, .inr ?_⟩
    intro w hw
    obtain ⟨-, -, hh⟩ := C73.antiSurge_congr hc env.svc env.roots env.remains env.remains s _ _
      (show R sec sec.surgeHandlers _ _ from fun _ _ _ => rfl)
    have hh := hh surge (by rw [ha])
    generalize hconfs : (⟨sec.shaft, fd.config⟩ :: surge.configuration : List (Conf κ)) = confs at *
    have hkeys : confs.map (·.handler) = sec.shaft :: sec.surgeHandlers := by rw [← hconfs, List.map_cons, hh]
    rw [← pressure_ok, ← h2, hsol, applyAll_merge]
    refine C73.pressure_congr hc env.svc ?_ s
    intro k hk _
    by_cases hm : k ∈ pc.configuration.map (·.handler)
    · exact C73.applyAll_mem _ _ _ _ hm
    · rw [C73.applyAll_not_mem _ _ _ hm, C73.applyAll_not_mem _ _ _ hm]
      refine C73.applyAll_mem _ _ _ _ ?_
      rw [hkeys]
      unfold handlers at hk
      rw [List.mem_cons, List.mem_append] at hk
      rw [List.mem_cons]
      have := h3 k
      tauto

/-! ## Examples and deviations -/

/-- A root finder that checks the result of another one. -/
def checked (ε : ℚ) (root : RootFinder) : RootFinder := fun b g => do
  let x ← root b g
  let y ← g x
  if b.min ≤ x ∧ x ≤ b.max ∧ |y| ≤ ε then return x else throw .notConverged

theorem checked_within (ε : ℚ) (root : RootFinder) : RootWithin (checked ε root) ε := by
  intro b g x h
  unfold checked at h
  obtain ⟨x', -, h⟩ := bind_ok h
  obtain ⟨y, hy, h⟩ := bind_ok h
  split at h
  · rename_i hc
    simp only [pure, Except.pure, Except.ok.injEq] at h
    subst h
    exact ⟨hc.1, hc.2.1, y, hy, hc.2.2⟩
  · cases h

/-- A root finder that tries its result last. -/
def finishing (root : RootFinder) : Roots := ⟨root, fun b g => match root b g with | .ok x => x | .error _ => b.max⟩

theorem finishing_last (root : RootFinder) : LastIsRoot (finishing root) := by
  intro b g x h
  have h' : root b g = .ok x := h
  simp only [finishing]
  rw [h']

/-- A compressor that gives less pressure the more mass it takes. -/
def sloper : Compressor where
  minFlow := fun _ => 1 / 5
  maxFlow := fun _ => 1
  outlet := fun n s => .ok { s with props := { s.props with pressure := s.props.pressure + n - s.mass, density := s.props.pressure + n - s.mass } }
  speed := none

/-- An environment with an ideal gas and stage ratios of 8 / 5. -/
def place : Env Nat := ⟨C40.ideal, finishing (checked (1 / 1000) C73.linear), fun _ _ => 8 / 5, fun _ => 7⟩

/-- One compressor with its loop. -/
def one (c : Control Nat) : Sec Nat := ⟨[.mix 1, .comp sloper, .split 1], [1], 0, ⟨30, 100⟩, c⟩

/-- Two compressors, each with its own loop. -/
def two : Sec Nat :=
  ⟨[.mix 1, .comp sloper, .split 1, .mix 2, .comp sloper, .split 2], [1, 2], 0, ⟨30, 100⟩, .asvPressure⟩

/-- A compressor behind a choke. -/
def throttled : Sec Nat := ⟨[.choke 2, .mix 1, .comp C73.pusher, .split 1], [1], 0, ⟨10, 100⟩, .upstreamChoke 2⟩

/-- Configuration and failure of a result. -/
def told (x : Except PErr (Sol Nat) × Settings Nat) : Option (List (Nat × ℚ) × Option SFailure) :=
  x.1.toOption.map fun sol => (sol.configuration.map fun c => (c.handler, c.value), sol.failure)

/-- The train of C73, with a target below what the smallest speed gives: the theorem applies, and the choke takes 5. -/
example : Closed C73.train ∧ Distinct C73.train ∧ ChokeLast C73.train ∧ Lawful place.svc ∧
    RootWithin place.roots.find (1 / 1000) ∧ LastIsRoot place.roots ∧
    told (findSolution place C73.train 25 (1 / 1000) (C73.inlet 80) fun _ => 3) = some ([(0, 10), (1, 0), (2, 5)], none) := by
  refine ⟨C73.train_closed, ⟨by decide, ?_⟩, ?_, C40.ideal_lawful, checked_within _ _, finishing_last _, by decide +kernel⟩
  · intro c hc
    simp [C73.train] at hc
    subst hc
    decide
  · intro c hc
    simp [C73.train] at hc
    subst hc
    refine ⟨[.mix 1, .comp C73.pusher, .split 1], rfl, ?_⟩
    intro u hu
    simp at hu
    rcases hu with rfl | rfl | rfl <;> simp [slotHandler]

/-- The other controls: recirculation for 35 bara at the smallest speed, which alone gives 40. -/
example : told (findSolution place (one .asvRate) 35 (1 / 1000) (C73.inlet 10) fun _ => 3) =
      some ([(0, 30), (1, 150)], none) ∧
    told (findSolution place (one (.commonAsv 1)) 35 (1 / 1000) (C73.inlet 10) fun _ => 3) =
      some ([(0, 30), (1, 150)], none) ∧
    told (findSolution place throttled 25 (1 / 1000) (C73.inlet 10) fun _ => 3) =
      some ([(0, 10), (1, 150 + 1 / 1000000), (2, 5)], none) := by
  decide +kernel

/-- Out of reach: the largest speed gives 110 bara, full recirculation 30. -/
example : told (findSolution place (one .asvRate) 120 (1 / 1000) (C73.inlet 10) fun _ => 3) =
      some ([(0, 100), (1, 0)], some (.finding (.unreachable 110 120 false))) ∧
    told (findSolution place (one .asvRate) 25 (1 / 1000) (C73.inlet 10) fun _ => 3) =
      some ([(0, 30), (1, 300 - 1 / 1000000)], some (.finding (.unreachable (30 + 1 / 30000000) 25 true))) := by
  decide +kernel

/-- Two stages of ratio 8 / 5: 20 to 32 to 51.2 bara. -/
example : told (findSolution place two (256 / 5) (1 / 1000) (C73.inlet 10) fun _ => 3) =
      some ([(0, 30), (1, 240), (2, 24)], none) ∧
    two.stage place.svc (fun k => if k = 0 then 30 else if k = 1 then 240 else 24) (C73.inlet 10) 0 = .ok 32 ∧
    two.stage place.svc (fun k => if k = 0 then 30 else if k = 1 then 240 else 24) (C73.inlet 10) 1 = .ok (256 / 5) := by
  decide +kernel

/-- A root finder whose last point is not its result. -/
def wandering : Env Nat := { place with roots := ⟨checked (1 / 1000) C73.linear, fun b _ => b.max⟩ }

/-- **Deviation.** With an upstream choke the recirculation rates are the ones of the last point tried: if that is not
the pressure drop returned, a solution reported as a success can put the compressor in surge. -/
theorem C74_upstream_last :
    ∃ (env : Env Nat) (sec : Sec Nat) (sol : Sol Nat), RootWithin env.roots.find (1 / 1000) ∧ Lawful env.svc ∧ Closed sec ∧
      (findSolution env sec 25 (1 / 1000) (C73.inlet 10) fun _ => 0).1.toOption = some sol ∧ sol.failure = none ∧
      sec.run env.svc (applyAll sol.configuration fun _ => 0) (C73.inlet 10) = .error (.surge (2 / 3) 1) := by
  have hrun : throttled.run wandering.svc (applyAll [⟨0, 10⟩, ⟨1, 0⟩, ⟨2, 5⟩] fun _ => 0) (C73.inlet 10) =
      .error (.surge (2 / 3) 1) := by
    have : (match throttled.run wandering.svc (applyAll [⟨0, 10⟩, ⟨1, 0⟩, ⟨2, 5⟩] fun _ => 0) (C73.inlet 10) with
      | .ok _ => none | .error e => some e) = some (.surge (2 / 3) 1) := by decide +kernel
    generalize throttled.run wandering.svc (applyAll [⟨0, 10⟩, ⟨1, 0⟩, ⟨2, 5⟩] fun _ => 0) (C73.inlet 10) = x at this
    cases x with
    | ok o => cases this
    | error e => simpa using this
  refine ⟨wandering, throttled, ⟨[⟨0, 10⟩, ⟨1, 0⟩, ⟨2, 5⟩], none⟩, checked_within _ _, C40.ideal_lawful, ?_,
    by decide +kernel, rfl, hrun⟩
  intro u hu k hk
  simp [throttled] at hu
  rcases hu with rfl | rfl | rfl | rfl <;> simp [slotHandler] at hk <;> subst hk <;>
    simp [handlers, throttled, Sec.surgeHandlers, Sec.controlHandlers]

/-- Two stages and a pressure drop of 5 behind them. -/
def dropping : Sec Nat := { two with slots := two.slots ++ [.fixed (.pressureDropper 5)] }

/-- **Deviation.** With control by stage pressures the outlet of the section is not looked at: a pressure drop behind
the last compressor is missing at the outlet, and the solution is reported as a success. -/
theorem C74_stages_drop :
    ∃ sol : Sol Nat, (findSolution place dropping (256 / 5) (1 / 1000) (C73.inlet 10) fun _ => 0).1.toOption = some sol ∧
      sol.failure = none ∧
      dropping.pressure place.svc (applyAll sol.configuration fun _ => 0) (C73.inlet 10) = .ok (256 / 5 - 5) :=
  ⟨⟨[⟨0, 30⟩, ⟨1, 240⟩, ⟨2, 24⟩], none⟩, by decide +kernel, rfl, by decide +kernel⟩

end Verif.C74
