import Verif.Model.Sections
import Verif.Props.C74

/-!
# C75: solvers for several sections
-/

namespace Verif.C75
open Verif.Process Verif.Finders Verif.Solver Verif.Section Verif.Sections
open Verif.C40 (RootWithin Lawful)
open Verif.C73 (handlers Closed R slotHandler withRemains)
open Verif.C74 (LastIsRoot Distinct ChokeLast OthersReset applyAll_last lastSetting_merge lastSetting_isSome)

variable {κ : Type} [DecidableEq κ]

/-! ## Specification -/

/-- A section that is put together properly, with a pressure control other than by stage pressures, and a sensible
target. -/
structure Proper (env : Env κ) (g : Goal κ) : Prop where
  closed : Closed g.sec
  distinct : Distinct g.sec
  chokeLast : ChokeLast g.sec
  last : ∀ c, g.sec.control = .upstreamChoke c → LastIsRoot env.roots
  bounds : g.sec.bound.min ≤ g.sec.bound.max
  notStages : g.sec.control ≠ .asvPressure
  value : 0 ≤ g.value
  tol : 0 ≤ g.tol

/-- No two sections share a handler. -/
def Apart (gs : List (Goal κ)) : Prop := gs.Pairwise fun a b => ∀ k ∈ handlers a.sec, k ∉ handlers b.sec

/-- No two sections share a handler other than the shaft. -/
def ApartBut (gs : List (Goal κ)) : Prop :=
  gs.Pairwise fun a b => ∀ k ∈ handlers a.sec, k ∈ handlers b.sec → k = a.sec.shaft

/-- Run one after the other, each fed by the one before, all sections end on their targets. -/
def Delivered (svc : Service) (ε : ℚ) (st : Settings κ) : List (Goal κ) → Stream → Prop
  | [], _ => True
  | g :: gs, s =>
    ∃ o, g.sec.run svc st s = .ok o ∧ |o.props.pressure - g.value| ≤ max g.tol ε ∧ Delivered svc ε st gs o

/-- Handlers not mentioned are as after a reset, in all sections. -/
def AllReset (gs : List (Goal κ)) (cs : List (Conf κ)) (w : Settings κ) : Prop := ∀ g ∈ gs, OthersReset g.sec cs w

/-- The speeds the sections would need one by one, each fed by the one before at its own speed. -/
inductive Alone (env : Env κ) : List (Goal κ) → Stream → List ℚ → Prop
  | nil (s : Stream) : Alone env [] s []
  | cons {g : Goal κ} {gs : List (Goal κ)} {s o : Stream} {n : ℚ} {ns : List ℚ} (sol : Sol κ)
      (found : ∀ st, (findSolution env g.sec g.value g.tol s st).1 = .ok sol) (success : sol.failure = none)
      (speed : sol.getConfiguration g.sec.shaft = .ok n)
      (outlet : ∀ w, OthersReset g.sec sol.configuration w → g.sec.run env.svc (applyAll sol.configuration w) s = .ok o)
      (rest : Alone env gs o ns) : Alone env (g :: gs) s (n :: ns)

/-! ## Lemmas -/

theorem lastSetting_append (a b : List (Conf κ)) (k : κ) :
    C38.lastSetting k (a ++ b) = (C38.lastSetting k b).or (C38.lastSetting k a) := by
  induction a with
  | nil => simp [C38.lastSetting]
  | cons c a ih => rw [List.cons_append, C74.lastSetting_cons, ih, C74.lastSetting_cons, Option.or_assoc]

theorem lastSetting_none {cs : List (Conf κ)} {k : κ} (h : ∀ c ∈ cs, c.handler ≠ k) : C38.lastSetting k cs = none := by
  rw [← Option.not_isSome_iff_eq_none, lastSetting_isSome]
  intro hm
  obtain ⟨c, hc, e⟩ := List.mem_map.mp hm
  exact h c hc e

theorem not_mem_keys {cs : List (Conf κ)} {k : κ} : k ∉ cs.map (·.handler) ↔ ∀ c ∈ cs, c.handler ≠ k := by
  simp

theorem stages_handlers (svc : Service) (roots : Roots) (r : Settings κ) (sec : Sec κ) (target : Nat → ℚ) (s : Stream) :
    ∀ (ls : List κ) (i : Nat) (acc : List (Conf κ)) (st st' : Settings κ) (pc : Sol κ),
      stages svc roots r sec target s i ls acc st = (.ok pc, st') → pc.failure = none →
      pc.configuration.map (·.handler) = acc.map (·.handler) ++ ls := by
  intro ls
  induction ls with
  | nil => intro i acc st st' pc h _; simp only [stages, Prod.mk.injEq, Except.ok.injEq] at h; rw [← h.1]; simp
  | cons l ls ih =>
    intro i acc st st' pc h hf
    unfold stages at h
    cases hr : sec.range svc st s i with
    | error e => rw [hr] at h; simp at h
    | ok b =>
      rw [hr] at h
      dsimp only at h
      generalize findRecirc (1 / 100) 20 roots.find b (some (target i, pressureTol))
        (fun x => sec.stage svc (st.put l x) s i) = a at h
      cases a with
      | error e => simp at h
      | ok fd =>
        obtain ⟨x, fl⟩ := fd
        cases fl with
        | some fl =>
          simp only [Prod.mk.injEq, Except.ok.injEq] at h
          rw [← h.1] at hf
          cases hf
        | none =>
          have := ih _ _ _ _ _ h hf
          rw [this]
          simp

/-- What a pressure control that succeeds sets. -/
theorem control_covers {sec : Sec κ} (hc : Closed sec) {env : Env κ} {value tol : ℚ} {s : Stream} {u u' : Settings κ}
    {pc : Sol κ} (h : sec.controlPressure env value tol s u = (.ok pc, u')) (hf : pc.failure = none) :
    (∃ c, sec.control = .downstreamChoke c ∧ pc.configuration.map (·.handler) = [c] ∧ u' = u.put c 0) ∨
    ∀ k ∈ sec.surgeHandlers ++ sec.controlHandlers, k ∈ pc.configuration.map (·.handler) := by
  unfold Sec.controlPressure at h
  cases hcon : sec.control with
  | downstreamChoke c =>
    rw [hcon] at h
    dsimp only at h
    unfold controlDownstream at h
    generalize applyDownstream value tol (fun x => sec.pressure env.svc (u.put c x) s) = a at h
    cases a with
    | error e => simp at h
    | ok fd =>
      simp only [Prod.mk.injEq, Except.ok.injEq] at h
      exact .inl ⟨c, rfl, by rw [← h.1]; rfl, h.2.symm⟩
  | upstreamChoke c =>
    rw [hcon] at h
    dsimp only at h
    right
    unfold controlUpstream at h
    cases hfu : findUpstream env.roots.find value (upstreamBound s)
        (fun x => (chokeFunc env.svc env.roots env.remains sec c s u x).1) with
    | error e => rw [hfu] at h; simp at h
    | ok fd =>
      rw [hfu] at h
      dsimp only at h
      generalize upstreamLast env.roots value (upstreamBound s)
        (fun x => (chokeFunc env.svc env.roots env.remains sec c s u x).1) fd = x at h
      unfold chokeFunc at h
      obtain ⟨-, -, hh⟩ := C73.antiSurge_congr hc env.svc env.roots env.remains env.remains s (u.put c x) (u.put c x)
        (fun _ _ _ => rfl)
      generalize sec.antiSurge env.svc env.roots env.remains s (u.put c x) = a at h hh
      obtain ⟨a1, a2⟩ := a
      cases a1 with
      | error e => simp at h
      | ok sol =>
        have hh := hh sol rfl
        simp only [Prod.mk.injEq, Except.ok.injEq] at h
        rw [← h.1]
        intro k hk
        rw [List.map_append, hh]
        simpa [Sec.controlHandlers, hcon] using hk
  | commonAsv l =>
    rw [hcon] at h
    dsimp only at h
    right
    unfold controlCommon at h
    cases hr : sec.range env.svc (u.put l 0) s 0 with
    | error e => rw [hr] at h; simp at h
    | ok b =>
      rw [hr] at h
      dsimp only at h
      generalize findRecirc (1 / 100) 20 env.roots.find b (some (value, tol))
        (fun x => sec.pressure env.svc (u.put l x) s) = a at h
      cases a with
      | error e => simp at h
      | ok fd =>
        simp only [Prod.mk.injEq, Except.ok.injEq] at h
        rw [← h.1]
        intro k hk
        simpa [Sec.controlHandlers, Sec.surgeHandlers, hcon] using hk
  | asvRate =>
    rw [hcon] at h
    dsimp only at h
    right
    unfold controlRate at h
    generalize minAchievable env.svc sec s (resetAll sec.loops u) = a at h
    obtain ⟨a1, a2⟩ := a
    cases a1 with
    | error e => simp at h
    | ok m =>
      obtain ⟨cs, p⟩ := m
      dsimp only at h
      by_cases hp : p > value
      · rw [if_pos hp] at h
        simp only [Prod.mk.injEq, Except.ok.injEq] at h
        rw [← h.1] at hf
        cases hf
      · rw [if_neg hp] at h
        generalize env.roots.find ⟨0, 1⟩ (fun x => (outletAt env.svc sec s a2 x).map (· - value)) = b at h
        cases b with
        | error e => simp at h
        | ok x =>
          dsimp only at h
          have hh := C73.sweep_handlers env.svc sec s (atFraction x) sec.loops 0 (resetAll sec.loops a2)
          unfold fromFraction at h
          generalize sweep env.svc sec s (atFraction x) 0 sec.loops (resetAll sec.loops a2) = d at h hh
          obtain ⟨d1, d2⟩ := d
          cases d1 with
          | error e => simp at h
          | ok cs' =>
            simp only [Prod.mk.injEq, Except.ok.injEq] at h
            rw [← h.1]
            intro k hk
            rw [(hh cs' rfl).1]
            simpa [Sec.controlHandlers, Sec.surgeHandlers, hcon] using hk
  | asvPressure =>
    rw [hcon] at h
    right
    dsimp only at h
    unfold Section.controlPressure at h
    generalize minAchievable env.svc sec s (resetAll sec.loops u) = a at h
    obtain ⟨a1, a2⟩ := a
    cases a1 with
    | error e => simp at h
    | ok m =>
      obtain ⟨cs, p⟩ := m
      dsimp only at h
      by_cases hp : p > value
      · rw [if_pos hp] at h
        simp only [Prod.mk.injEq, Except.ok.injEq] at h
        rw [← h.1] at hf
        cases hf
      · rw [if_neg hp] at h
        have := stages_handlers _ _ _ _ _ _ _ _ _ _ _ _ h hf
        rw [this]
        intro k hk
        simpa [Sec.controlHandlers, Sec.surgeHandlers, hcon] using hk

/-- A pressure control that succeeds leaves alone what it does not set. -/
theorem control_keeps {sec : Sec κ} (hc : Closed sec) {env : Env κ} {value tol : ℚ} {s : Stream} {u u' : Settings κ}
    {pc : Sol κ} (h : sec.controlPressure env value tol s u = (.ok pc, u')) (hf : pc.failure = none) (k : κ)
    (hk : k ∉ pc.configuration.map (·.handler)) : u' k = u k := by
  rcases control_covers hc h hf with ⟨c, -, hm, rfl⟩ | hall
  · rw [hm] at hk
    exact C73.put_other _ _ _ _ (by simpa using hk)
  · have := C73.control_other env sec value tol s u k (fun hm => hk (hall k (List.mem_append_left _ hm)))
      (fun hm => hk (hall k (List.mem_append_right _ hm)))
    rw [h] at this
    exact this

/-- Handlers not mentioned by a successful solution of a section are reset, whatever the pressure control. -/
theorem others_reset {sec : Sec κ} (hc : Closed sec) {env : Env κ} {value tol : ℚ} {s : Stream} {st st' : Settings κ}
    {sol : Sol κ} (h : findSolution env sec value tol s st = (.ok sol, st')) (hok : sol.failure = none) :
    OthersReset sec sol.configuration st' := by
  obtain ⟨fd, surge, t, o, hs, -, -, ha, hsf, hrun, hcase⟩ := C74.success_parts h hok
  obtain ⟨-, -, hh⟩ := C73.antiSurge_congr hc env.svc env.roots env.remains env.remains s _ _
    (show R sec sec.surgeHandlers _ _ from fun _ _ _ => rfl)
  have hh := hh surge (by rw [ha])
  intro k hk hn
  have hn' := not_mem_keys.mpr hn
  rcases hcase with ⟨-, rfl, rfl⟩ | ⟨-, pc, hpc, hpf, hsol⟩
  · rw [C73.applyAll_not_mem _ _ _ hn']
    rw [List.map_cons, hh, List.mem_cons, not_or] at hn'
    have h1 := C73.antiSurge_other env.svc env.roots env.remains sec s ((leave env.remains (sec.shaft :: sec.surgeHandlers)
        (resetAll sec.controlHandlers st)).put sec.shaft fd.config) k hn'.2
    rw [ha] at h1
    dsimp only at h1
    rw [h1, C73.put_other _ _ _ _ hn'.1, C73.leave_not_mem _ _ _ _ (by simp [hn'.1, hn'.2])]
    refine C73.resetAll_mem _ _ _ ?_
    unfold handlers at hk
    rw [List.mem_cons, List.mem_append] at hk
    tauto
  · exfalso
    rw [hsol, C74.mem_merge, List.map_cons, hh, List.mem_cons, not_or, not_or] at hn'
    unfold handlers at hk
    rw [List.mem_cons, List.mem_append] at hk
    rcases control_covers hc hpc hpf with ⟨c, hcon, hm, -⟩ | hall
    · have hch : sec.controlHandlers = [c] := by simp [Sec.controlHandlers, hcon]
      rw [hm] at hn'
      rw [hch] at hk
      tauto
    · have := hall k
      rw [List.mem_append] at this
      tauto

/-- Settings that differ only outside what is configured or reset give the same result. -/
theorem reset_agree {sec : Sec κ} {cs : List (Conf κ)} {w w' : Settings κ} (h : OthersReset sec cs w)
    (h' : OthersReset sec cs w') : R sec [] (applyAll cs w) (applyAll cs w') := by
  intro k hk _
  by_cases hm : k ∈ cs.map (·.handler)
  · exact C73.applyAll_mem _ _ _ _ hm
  · rw [C73.applyAll_not_mem _ _ _ hm, C73.applyAll_not_mem _ _ _ hm, h k hk (not_mem_keys.mp hm),
      h' k hk (not_mem_keys.mp hm)]

/-! ## Sections on shafts of their own -/

/-- The configurations a run over several sections adds, and what they deliver in a longer list of configurations. -/
theorem shaftsE_delivers {env : Env κ} (hlaw : Lawful env.svc) {ε : ℚ} (hr : RootWithin env.roots.find ε) :
    ∀ (gs : List (Goal κ)) (s : Stream) (acc : List (Conf κ)) (st st' : Settings κ) (sol : Sol κ),
      (∀ g ∈ gs, Proper env g) → Apart gs → shaftsE env gs s acc st = (.ok sol, st') → sol.failure = none →
      ∃ rest, sol.configuration = acc ++ rest ∧ (∀ c ∈ rest, ∃ g ∈ gs, c.handler ∈ handlers g.sec) ∧
        ∀ cs w, (∀ g ∈ gs, ∀ k ∈ handlers g.sec, C38.lastSetting k cs = C38.lastSetting k rest) →
          AllReset gs cs w → Delivered env.svc ε (applyAll cs w) gs s ∧
            ∀ g ∈ gs, g.sec.bound.min ≤ applyAll cs w g.sec.shaft ∧ applyAll cs w g.sec.shaft ≤ g.sec.bound.max := by
  intro gs
  induction gs with
  | nil =>
    intro s acc st st' sol _ _ h _
    simp only [shaftsE, Prod.mk.injEq, Except.ok.injEq] at h
    exact ⟨[], by rw [← h.1]; simp, by simp, fun cs w _ _ => ⟨trivial, by simp⟩⟩
  | cons g gs ih =>
    intro s acc st st' sol hp hap h hok
    have hg := hp g List.mem_cons_self
    unfold shaftsE at h
    cases hfs : findSolution env g.sec g.value g.tol s st with
    | mk a st1 =>
    rw [hfs] at h
    cases a with
    | error e => simp at h
    | ok sol1 =>
      dsimp only at h
      by_cases hs1 : sol1.failure = none
      · have hsucc : sol1.success = true := by simp [Solution.success, hs1]
        rw [hsucc] at h
        simp only [Bool.not_true, Bool.false_eq_true, if_false] at h
        obtain ⟨hin, ⟨n, -, hlo, hhi, hsp⟩, hres, hdel⟩ := C74.C74_delivers hg.closed hg.distinct hg.chokeLast env hlaw hr
          hg.last hg.bounds hg.notStages hg.value hg.tol hfs hs1
        cases hrun : g.sec.run env.svc (applyAll sol1.configuration st1) s with
        | error e => rw [hrun] at h; simp at h
        | ok o =>
          rw [hrun] at h
          dsimp only at h
          have hap' : (∀ b ∈ gs, ∀ k ∈ handlers g.sec, k ∉ handlers b.sec) ∧ Apart gs := List.pairwise_cons.mp hap
          obtain ⟨rest, hconf, hrest, hd⟩ := ih _ _ _ _ _ (fun g' hg' => hp g' (List.mem_cons_of_mem _ hg')) hap'.2 h hok
          refine ⟨sol1.configuration ++ rest, by rw [hconf, List.append_assoc], ?_, ?_⟩
          · intro c hc
            rcases List.mem_append.mp hc with hc | hc
            · exact ⟨g, List.mem_cons_self, hin c hc⟩
            · obtain ⟨g', hg', hm⟩ := hrest c hc
              exact ⟨g', List.mem_cons_of_mem _ hg', hm⟩
          · intro cs w hlast hreset
            have h1 : ∀ k ∈ handlers g.sec, C38.lastSetting k cs = C38.lastSetting k sol1.configuration := by
              intro k hk
              rw [hlast g List.mem_cons_self k hk, lastSetting_append, lastSetting_none (cs := rest), Option.none_or]
              intro c hc e
              obtain ⟨g', hg', hm⟩ := hrest c hc
              exact hap'.1 g' hg' k hk (by rw [← e]; exact hm)
            have hag : R g.sec [] (applyAll cs w) (applyAll sol1.configuration w) := by
              intro k hk _
              rw [applyAll_last, applyAll_last, h1 k hk]
            have hres' : OthersReset g.sec sol1.configuration w := by
              intro k hk hn
              refine hreset g List.mem_cons_self k hk ?_
              rw [← not_mem_keys, ← lastSetting_isSome, h1 k hk, lastSetting_none hn]
              simp
            have hrun' : g.sec.run env.svc (applyAll cs w) s = .ok o := by
              rw [C73.run_congr hg.closed env.svc hag, C73.run_congr hg.closed env.svc (reset_agree hres' hres), hrun]
            obtain ⟨hD, hB⟩ := hd cs w (by
              intro g' hg' k hk
              rw [hlast g' (List.mem_cons_of_mem _ hg') k hk, lastSetting_append]
              rw [lastSetting_none (cs := sol1.configuration), Option.or_none]
              intro c hc e
              exact hap'.1 g' hg' k (by rw [← e]; exact hin c hc) hk)
              (fun g' hg' => hreset g' (List.mem_cons_of_mem _ hg'))
            refine ⟨⟨o, hrun', ?_, hD⟩, ?_⟩
            · refine (hdel st1 hres).1 o hrun
            · intro g' hg'
              rcases List.mem_cons.mp hg' with rfl | hg'
              · rw [hag _ (C73.shaft_mem _) (by simp), hsp]
                exact ⟨hlo, hhi⟩
              · exact hB g' hg'
      · have hsucc : sol1.success = false := by
          cases hf : sol1.failure with
          | none => exact absurd hf hs1
          | some f => simp [Solution.success, hf]
        rw [hsucc] at h
        simp only [Bool.not_false, if_true, Prod.mk.injEq, Except.ok.injEq] at h
        rw [← h.1] at hok
        exact absurd hok hs1

theorem guarded_ok {x : Except PErr (Sol κ) × Settings κ} {sol : Sol κ} {st : Settings κ}
    (h : guarded x = (.ok sol, st)) (hok : sol.failure = none) : x = (.ok sol, st) := by
  obtain ⟨x1, x2⟩ := x
  cases x1 with
  | ok s => exact h
  | error e =>
    unfold guarded at h
    dsimp only at h
    cases hc : caught e with
    | none => rw [hc] at h; simp at h
    | some fl =>
      rw [hc] at h
      simp only [Prod.mk.injEq, Except.ok.injEq] at h
      rw [← h.1] at hok
      cases hok

/-- **Sections on shafts of their own.** If the solver reports success, applying the returned configurations to
sections whose other handlers are reset and running the sections one after the other gives every section its target
pressure, at a speed within the bounds of its shaft. -/
theorem C75_shafts {env : Env κ} (hlaw : Lawful env.svc) {ε : ℚ} (hr : RootWithin env.roots.find ε) {secs : List (Sec κ)}
    {targets : List (ℚ × ℚ)} (hp : ∀ g ∈ goals secs targets, Proper env g) (ha : Apart (goals secs targets)) {s : Stream}
    {st st' : Settings κ} {sol : Sol κ} (h : shafts env secs targets s st = (.ok sol, st')) (hok : sol.failure = none) :
    targets.length = secs.length ∧ ∀ w, AllReset (goals secs targets) sol.configuration w →
      Delivered env.svc ε (applyAll sol.configuration w) (goals secs targets) s ∧
      ∀ g ∈ goals secs targets, g.sec.bound.min ≤ applyAll sol.configuration w g.sec.shaft ∧
        applyAll sol.configuration w g.sec.shaft ≤ g.sec.bound.max := by
  unfold shafts at h
  split at h
  · simp at h
  · rename_i hlen
    refine ⟨not_not.mp hlen, fun w hw => ?_⟩
    obtain ⟨rest, hconf, -, hd⟩ := shaftsE_delivers hlaw hr _ _ _ _ _ _ hp ha (guarded_ok h hok) hok
    rw [List.nil_append] at hconf
    exact hd _ w (fun _ _ _ _ => by rw [hconf]) hw

theorem rolling_length (r : ℚ) (n : Nat) (p : ℚ) : (rolling r n p).length = n := by
  induction n generalizing p with
  | zero => rfl
  | succ n ih => simp [rolling, ih]

theorem rolling_get (r : ℚ) (n : Nat) (p : ℚ) (i : Nat) (h : i < n) : (rolling r n p)[i]? = some (p * r ^ (i + 1)) := by
  induction n generalizing p i with
  | zero => omega
  | succ n ih =>
    unfold rolling
    cases i with
    | zero => simp
    | succ i =>
      rw [List.getElem?_cons_succ, ih _ _ (by omega)]
      congr 1
      ring

theorem goal_parts (ss : List (Sec κ)) (ts : List (ℚ × ℚ)) :
    ∀ g ∈ goals ss ts, ∃ sec ∈ ss, ∃ x ∈ ts, g = ⟨sec, x.1, x.2⟩ := by
  induction ss generalizing ts with
  | nil => intro g hg; simp [goals] at hg
  | cons a ss ih =>
    intro g hg
    cases ts with
    | nil => simp [goals] at hg
    | cons t ts =>
      simp only [goals, List.zipWith_cons_cons, List.mem_cons] at hg
      rcases hg with rfl | hg
      · exact ⟨a, List.mem_cons_self, t, List.mem_cons_self, rfl⟩
      · obtain ⟨sec, h1, x, h2, h3⟩ := ih ts g hg
        exact ⟨sec, List.mem_cons_of_mem _ h1, x, List.mem_cons_of_mem _ h2, h3⟩

/-- **Equal pressure ratios.** If the solver that splits the pressure ratio reports success, every section but the last
has brought the pressure to the inlet pressure times the ratio per section, as often as there were sections, and the
last one to the target asked for. -/
theorem C75_ratio {env : Env κ} (hlaw : Lawful env.svc) {ε : ℚ} (hr : RootWithin env.roots.find ε) {secs : List (Sec κ)}
    (hne : secs ≠ []) {value tol : ℚ} {s : Stream} (hv : 0 ≤ value) (hpos : 0 ≤ s.props.pressure)
    (hratio : 0 ≤ env.ratio (value / s.props.pressure) secs.length)
    (hp : ∀ sec ∈ secs, ∀ v, 0 ≤ v → Proper env ⟨sec, v, tol⟩)
    (ha : secs.Pairwise fun a b => ∀ k ∈ handlers a, k ∉ handlers b)
    {st st' : Settings κ} {sol : Sol κ} (h : equalRatio env secs value tol s st = (.ok sol, st')) (hok : sol.failure = none) :
    ∃ targets : List (ℚ × ℚ), targets.length = secs.length ∧ targets.getLast? = some (value, tol) ∧
      (∀ i, i + 1 < secs.length →
        targets[i]? = some (s.props.pressure * env.ratio (value / s.props.pressure) secs.length ^ (i + 1), tol)) ∧
      ∀ w, AllReset (goals secs targets) sol.configuration w →
        Delivered env.svc ε (applyAll sol.configuration w) (goals secs targets) s := by
  have hlen : secs.length ≠ 0 := fun h0 => hne (List.length_eq_zero_iff.mp h0)
  unfold equalRatio at h
  rw [if_neg hlen] at h
  generalize hr' : env.ratio (value / s.props.pressure) secs.length = r at *
  generalize hp' : s.props.pressure = p at *
  have ht : ratioTargets env.ratio secs.length p value tol = ((rolling r secs.length p).dropLast ++ [value]).map fun v => (v, tol) := by
    unfold ratioTargets
    rw [hr']
  have hmem : ∀ x ∈ ratioTargets env.ratio secs.length p value tol, 0 ≤ x.1 ∧ x.2 = tol := by
    rw [ht]
    intro x hx
    obtain ⟨v, hvm, rfl⟩ := List.mem_map.mp hx
    refine ⟨?_, rfl⟩
    rcases List.mem_append.mp hvm with hvm | hvm
    · have := List.dropLast_subset _ hvm
      obtain ⟨i, hi⟩ := List.mem_iff_getElem?.mp this
      have hlt : i < secs.length := by
        have := (List.getElem?_eq_some_iff.mp hi).1
        rwa [rolling_length] at this
      rw [rolling_get _ _ _ _ hlt] at hi
      have : p * r ^ (i + 1) = v := by simpa using hi
      rw [← this]
      positivity
    · simp only [List.mem_singleton] at hvm
      rw [hvm]
      exact hv
  generalize ratioTargets env.ratio secs.length p value tol = targets at *
  have hprop : ∀ g ∈ goals secs targets, Proper env g := by
    intro g hg
    obtain ⟨sec, h1, x, h2, rfl⟩ := goal_parts _ _ g hg
    rw [(hmem x h2).2]
    exact hp sec h1 _ (hmem x h2).1
  have hapart : Apart (goals secs targets) := by
    clear h hprop hmem ht hp hratio hr' hlen hne
    induction secs generalizing targets with
    | nil => simp [goals, Apart]
    | cons a ss ih =>
      cases targets with
      | nil => simp [goals, Apart]
      | cons t ts =>
        rw [List.pairwise_cons] at ha
        refine List.pairwise_cons.mpr ⟨?_, ih ha.2 ts⟩
        intro g hg
        obtain ⟨sec, h1, x, h2, rfl⟩ := goal_parts ss ts g hg
        exact ha.1 sec h1
  obtain ⟨hl, hD⟩ := C75_shafts hlaw hr hprop hapart h hok
  refine ⟨targets, hl, ?_, ?_, fun w hw => (hD w hw).1⟩
  · rw [ht]; simp
  · intro i hi
    rw [ht, List.getElem?_map, List.getElem?_append_left (by rw [List.length_dropLast, rolling_length]; omega),
      List.getElem?_dropLast, if_pos (by rw [rolling_length]; omega), rolling_get _ _ _ _ (by omega)]
    rfl

/-! ## Sections on one shaft -/

theorem maxOf_mem : ∀ (ns : List ℚ), ns ≠ [] → maxOf ns ∈ ns ∧ ∀ x ∈ ns, x ≤ maxOf ns := by
  intro ns hne
  cases ns with
  | nil => exact absurd rfl hne
  | cons n ns =>
    show ns.foldl max n ∈ n :: ns ∧ ∀ x ∈ n :: ns, x ≤ ns.foldl max n
    clear hne
    induction ns generalizing n with
    | nil => simp
    | cons m ns ih =>
      rw [List.foldl_cons]
      obtain ⟨h1, h2⟩ := ih (max n m)
      refine ⟨?_, ?_⟩
      · rcases List.mem_cons.mp h1 with h1 | h1
        · rw [h1]
          rcases max_choice n m with h | h <;> rw [h] <;> simp
        · exact List.mem_cons_of_mem _ (List.mem_cons_of_mem _ h1)
      · intro x hx
        have := h2 _ List.mem_cons_self
        rcases List.mem_cons.mp hx with rfl | hx
        · exact le_trans (le_max_left _ _) this
        · rcases List.mem_cons.mp hx with rfl | hx
          · exact le_trans (le_max_right _ _) this
          · exact h2 x (List.mem_cons_of_mem _ hx)

/-- The first pass finds the speeds the sections need one by one. -/
theorem speeds_alone {env : Env κ} (hlaw : Lawful env.svc) {ε : ℚ} (hr : RootWithin env.roots.find ε) {shaft : κ}
    {b : Boundary} : ∀ (gs : List (Goal κ)) (s : Stream) (st st' : Settings κ) (ns : List ℚ),
      (∀ g ∈ gs, Proper env g) → (∀ g ∈ gs, g.sec.shaft = shaft) → (∀ g ∈ gs, g.sec.bound = b) →
      speeds env shaft gs s st = (.ok (.inr ns), st') →
      Alone env gs s ns ∧ ns.length = gs.length ∧ ∀ x ∈ ns, b.min ≤ x ∧ x ≤ b.max := by
  intro gs
  induction gs with
  | nil =>
    intro s st st' ns _ _ _ h
    simp only [speeds, Prod.mk.injEq, Except.ok.injEq, Sum.inr.injEq] at h
    rw [← h.1]
    exact ⟨.nil s, rfl, by simp⟩
  | cons g gs ih =>
    intro s st st' ns hp hsh hb h
    have hg := hp g List.mem_cons_self
    unfold speeds at h
    cases hfs : findSolution env g.sec g.value g.tol s st with
    | mk a st1 =>
    rw [hfs] at h
    cases a with
    | error e => simp at h
    | ok sol1 =>
      dsimp only at h
      by_cases hs1 : sol1.failure = none
      · have hsucc : sol1.success = true := by simp [Solution.success, hs1]
        rw [hsucc] at h
        simp only [Bool.not_true, Bool.false_eq_true, if_false] at h
        obtain ⟨-, ⟨n, hn, hlo, hhi, -⟩, hres, hdel⟩ := C74.C74_delivers hg.closed hg.distinct hg.chokeLast env hlaw hr
          hg.last hg.bounds hg.notStages hg.value hg.tol hfs hs1
        rw [hsh g List.mem_cons_self] at hn
        rw [hn] at h
        dsimp only at h
        cases hrun : g.sec.run env.svc (applyAll sol1.configuration st1) s with
        | error e => rw [hrun] at h; simp at h
        | ok o =>
          rw [hrun] at h
          dsimp only at h
          cases hrest : speeds env shaft gs o (applyAll sol1.configuration st1) with
          | mk a st2 =>
          rw [hrest] at h
          cases a with
          | error e => simp at h
          | ok x =>
            cases x with
            | inl x => simp at h
            | inr ms =>
              simp only [Prod.mk.injEq, Except.ok.injEq, Sum.inr.injEq] at h
              obtain ⟨hA, hlen, hB⟩ := ih _ _ _ _ (fun g' hg' => hp g' (List.mem_cons_of_mem _ hg'))
                (fun g' hg' => hsh g' (List.mem_cons_of_mem _ hg')) (fun g' hg' => hb g' (List.mem_cons_of_mem _ hg')) hrest
              rw [← h.1]
              refine ⟨.cons sol1 ?_ hs1 (by rw [hsh g List.mem_cons_self]; exact hn) ?_ hA, by simp [hlen], ?_⟩
              · intro w
                have := C73.C73_fresh hg.closed env env.remains env.remains g.value g.tol s w st
                have : (findSolution env g.sec g.value g.tol s w).1 = (findSolution env g.sec g.value g.tol s st).1 := this
                rw [this, hfs]
              · intro w hw
                rw [C73.run_congr hg.closed env.svc (reset_agree hw hres), hrun]
              · intro x hx
                rcases List.mem_cons.mp hx with rfl | hx
                · rw [← hb g List.mem_cons_self]
                  exact ⟨hlo, hhi⟩
                · exact hB x hx
      · have hsucc : sol1.success = false := by
          cases hf : sol1.failure with
          | none => exact absurd hf hs1
          | some f => simp [Solution.success, hf]
        rw [hsucc] at h
        simp at h

/-- The value of the last setting. -/
def valueOf : Option (Conf κ) → Except Time.Err ℚ
  | some c => .ok c.value
  | none => .error .valueError

/-- The settings a section is run with in the second pass are the ones the configuration gives it. -/
theorem agree {sec : Sec κ} {shaft : κ} {n : ℚ} {cs part : List (Conf κ)} {w t : Settings κ}
    (hw : applyAll cs w shaft = n) (ht : t shaft = n) (hsh : shaft ∉ part.map (·.handler))
    (hlast : ∀ k ∈ handlers sec, k ≠ shaft → C38.lastSetting k cs = C38.lastSetting k part)
    (hreset : OthersReset sec cs w)
    (hzero : ∀ k ∈ handlers sec, k ≠ shaft → k ∉ part.map (·.handler) → t k = 0) :
    R sec [] (applyAll cs w) (applyAll part t) := by
  intro k hk _
  by_cases he : k = shaft
  · subst he
    rw [hw, C73.applyAll_not_mem _ _ _ hsh, ht]
  · by_cases hm : k ∈ part.map (·.handler)
    · rw [applyAll_last, applyAll_last, hlast k hk he]
      have := (lastSetting_isSome part k).mpr hm
      cases hL : C38.lastSetting k part with
      | none => rw [hL] at this; cases this
      | some c => rfl
    · have hn : C38.lastSetting k part = none := lastSetting_none (not_mem_keys.mp hm)
      rw [applyAll_last, hlast k hk he, hn, C73.applyAll_not_mem _ _ _ hm, hzero k hk he hm]
      refine hreset k hk ?_
      rw [← not_mem_keys, ← lastSetting_isSome, hlast k hk he, hn]
      simp

theorem combine_success {sol other : Sol κ} (h : sol.failure = none) :
    sol.combine other = ⟨mergeConfigurations sol.configuration other.configuration, other.failure⟩ := by
  simp [Solution.combine, Solution.success, h]

/-- What the second pass delivers. -/
theorem atSpeed_delivers {env : Env κ} (hlaw : Lawful env.svc) {ε : ℚ} (hr : RootWithin env.roots.find ε) {shaft : κ}
    {n : ℚ} : ∀ (gs : List (Goal κ)) (s : Stream) (sol sol' : Sol κ) (st st' : Settings κ),
      (∀ g ∈ gs, Proper env g) → (∀ g ∈ gs, g.sec.shaft = shaft) → ApartBut gs → sol.failure = none →
      atSpeed env shaft n gs s sol st = (.ok sol', st') → sol'.failure = none →
      ∃ rest, (∀ k, C38.lastSetting k sol'.configuration = (C38.lastSetting k rest).or (C38.lastSetting k sol.configuration)) ∧
        (∀ c ∈ rest, c.handler ≠ shaft ∧ ∃ g ∈ gs, c.handler ∈ handlers g.sec) ∧
        ((∀ k, sol.getConfiguration k = valueOf (C38.lastSetting k sol.configuration)) →
          ∀ k, sol'.getConfiguration k = valueOf (C38.lastSetting k sol'.configuration)) ∧
        ∀ cs w, applyAll cs w shaft = n →
          (∀ g ∈ gs, ∀ k ∈ handlers g.sec, k ≠ shaft → C38.lastSetting k cs = C38.lastSetting k rest) →
          AllReset gs cs w → Delivered env.svc ε (applyAll cs w) gs s := by
  intro gs
  induction gs with
  | nil =>
    intro s sol sol' st st' _ _ _ _ h _
    simp only [atSpeed, Prod.mk.injEq, Except.ok.injEq] at h
    rw [← h.1]
    exact ⟨[], fun k => by simp [C38.lastSetting], by simp, fun h => h, fun _ _ _ _ _ => trivial⟩
  | cons g gs ih =>
    intro s sol sol' st st' hp hsh hap hsf h hok
    have hg := hp g List.mem_cons_self
    have hshg := hsh g List.mem_cons_self
    have hap' : (∀ b ∈ gs, ∀ k ∈ handlers g.sec, k ∈ handlers b.sec → k = g.sec.shaft) ∧ ApartBut gs :=
      List.pairwise_cons.mp hap
    have hns : shaft ∉ g.sec.surgeHandlers ++ g.sec.controlHandlers := by rw [← hshg]; exact hg.distinct.1
    unfold atSpeed at h
    obtain ⟨-, -, hh⟩ := C73.antiSurge_congr hg.closed env.svc env.roots env.remains env.remains s
      ((resetAll g.sec.controlHandlers st).put shaft n) ((resetAll g.sec.controlHandlers st).put shaft n) (fun _ _ _ => rfl)
    have hother := C73.antiSurge_other env.svc env.roots env.remains g.sec s ((resetAll g.sec.controlHandlers st).put shaft n)
    generalize g.sec.antiSurge env.svc env.roots env.remains s ((resetAll g.sec.controlHandlers st).put shaft n) = a
      at h hh hother
    obtain ⟨a1, t⟩ := a
    cases a1 with
    | error e => simp at h
    | ok surge =>
      have hh := hh surge rfl
      dsimp only at h hother
      rw [combine_success hsf] at h
      have ht : t shaft = n := by
        rw [hother shaft (fun hm => hns (List.mem_append_left _ hm)), C73.put_self]
      have hzero : ∀ k ∈ handlers g.sec, k ≠ shaft → k ∉ surge.configuration.map (·.handler) → t k = 0 := by
        intro k hk he hm
        rw [hh] at hm
        rw [hother k hm, C73.put_other _ _ _ _ he]
        refine C73.resetAll_mem _ _ _ ?_
        unfold handlers at hk
        rw [List.mem_cons, List.mem_append, hshg] at hk
        tauto
      -- the rest of the sections, after this one has added some configurations
      have key : ∀ (part : List (Conf κ)) (sol2 : Sol κ) (o : Stream) (st2 : Settings κ),
          (∀ c ∈ part, c.handler ∈ g.sec.surgeHandlers ++ g.sec.controlHandlers) →
          (∀ k ∈ handlers g.sec, k ≠ shaft → k ∉ part.map (·.handler) → t k = 0) →
          sol2.failure = none →
          (∀ k, C38.lastSetting k sol2.configuration =
            (C38.lastSetting k part).or (C38.lastSetting k sol.configuration)) →
          (∀ k, sol2.getConfiguration k = valueOf (C38.lastSetting k sol2.configuration)) →
          g.sec.run env.svc (applyAll part t) s = .ok o → |o.props.pressure - g.value| ≤ max g.tol ε →
          atSpeed env shaft n gs o sol2 st2 = (.ok sol', st') →
          ∃ rest, (∀ k, C38.lastSetting k sol'.configuration = (C38.lastSetting k rest).or (C38.lastSetting k sol.configuration)) ∧
            (∀ c ∈ rest, c.handler ≠ shaft ∧ ∃ g' ∈ g :: gs, c.handler ∈ handlers g'.sec) ∧
            ((∀ k, sol.getConfiguration k = valueOf (C38.lastSetting k sol.configuration)) →
              ∀ k, sol'.getConfiguration k = valueOf (C38.lastSetting k sol'.configuration)) ∧
            ∀ cs w, applyAll cs w shaft = n →
              (∀ g' ∈ g :: gs, ∀ k ∈ handlers g'.sec, k ≠ shaft → C38.lastSetting k cs = C38.lastSetting k rest) →
              AllReset (g :: gs) cs w → Delivered env.svc ε (applyAll cs w) (g :: gs) s := by
        intro part sol2 o st2 hpart hz hf2 hl2 hg2 hrun hclose hrest
        obtain ⟨rest, hl, hin, hget, hd⟩ := ih o sol2 sol' st2 st' (fun g' hg' => hp g' (List.mem_cons_of_mem _ hg'))
          (fun g' hg' => hsh g' (List.mem_cons_of_mem _ hg')) hap'.2 hf2 hrest hok
        have hpart' : ∀ c ∈ part, c.handler ∈ handlers g.sec := fun c hc => by
          unfold handlers; exact List.mem_cons_of_mem _ (hpart c hc)
        refine ⟨part ++ rest, ?_, ?_, fun _ => hget hg2, ?_⟩
        · intro k
          rw [hl k, hl2 k, lastSetting_append, Option.or_assoc]
        · intro c hc
          rcases List.mem_append.mp hc with hc | hc
          · exact ⟨fun e => hns (by rw [← e]; exact hpart c hc), g, List.mem_cons_self, hpart' c hc⟩
          · obtain ⟨h1, g', h2, h3⟩ := hin c hc
            exact ⟨h1, g', List.mem_cons_of_mem _ h2, h3⟩
        · intro cs w hw hlast hreset
          have h1 : ∀ k ∈ handlers g.sec, k ≠ shaft → C38.lastSetting k cs = C38.lastSetting k part := by
            intro k hk he
            rw [hlast g List.mem_cons_self k hk he, lastSetting_append, lastSetting_none (cs := rest), Option.none_or]
            intro c hc e
            obtain ⟨-, g', hg', hm⟩ := hin c hc
            exact he (by rw [← hshg]; exact hap'.1 g' hg' k hk (by rw [← e]; exact hm))
          have hag := agree hw ht (fun hm => by
            obtain ⟨c, hc, e⟩ := List.mem_map.mp hm
            exact hns (by rw [← e]; exact hpart c hc)) h1 (hreset g List.mem_cons_self) hz
          refine ⟨o, by rw [C73.run_congr hg.closed env.svc hag, hrun], hclose, ?_⟩
          refine hd cs w hw ?_ (fun g' hg' => hreset g' (List.mem_cons_of_mem _ hg'))
          intro g' hg' k hk he
          rw [hlast g' (List.mem_cons_of_mem _ hg') k hk he, lastSetting_append]
          rw [lastSetting_none (cs := part), Option.or_none]
          intro c hc e
          refine he ?_
          rw [← hshg]
          exact hap'.1 g' hg' k (by rw [← e]; exact hpart' c hc) hk
      have hsin : ∀ c ∈ surge.configuration, c.handler ∈ g.sec.surgeHandlers := by
        intro c hc
        rw [← hh]
        exact List.mem_map_of_mem hc
      have hget1 : ∀ (a b : List (Conf κ)) (k : κ), (Solution.mk (φ := SFailure) (mergeConfigurations a b) none).getConfiguration k =
          valueOf (C38.lastSetting k (mergeConfigurations a b)) := by
        intro a b k
        rw [C38.C38_value, lastSetting_merge]
        cases (C38.lastSetting k b).or (C38.lastSetting k a) <;> rfl
      cases hsurge : surge.failure with
      | some fl =>
        rw [hsurge] at h
        simp only [Solution.success, Option.isNone_some, Bool.not_false, if_true, Prod.mk.injEq, Except.ok.injEq] at h
        rw [← h.1] at hok
        cases hok
      | none =>
        rw [hsurge] at h
        simp only [Solution.success, Option.isNone_none, Bool.not_true, Bool.false_eq_true, if_false] at h
        cases hrun : g.sec.run env.svc (applyAll surge.configuration t) s with
        | error e => rw [hrun] at h; simp at h
        | ok o =>
          rw [hrun] at h
          dsimp only at h
          by_cases hcl : close g.value g.tol o.props.pressure
          · rw [hcl] at h
            simp only [Bool.not_true, Bool.false_and, Bool.false_eq_true, if_false] at h
            refine key surge.configuration _ o _ (fun c hc => List.mem_append_left _ (hsin c hc)) hzero rfl ?_ ?_ hrun ?_ h
            · intro k
              exact lastSetting_merge _ _ _
            · exact hget1 _ _
            · unfold close at hcl
              exact le_max_of_le_left (by simpa using hcl)
          · have hcl : close g.value g.tol o.props.pressure = false := by simpa using hcl
            rw [hcl] at h
            simp only [Bool.not_false, Bool.true_and] at h
            by_cases hhi : g.value < o.props.pressure
            · simp only [hhi, decide_true, if_true] at h
              cases hpc : g.sec.controlPressure env g.value g.tol s (applyAll surge.configuration t) with
              | mk a st2 =>
              rw [hpc] at h
              cases a with
              | error e => simp at h
              | ok pc =>
                dsimp only at h
                rw [combine_success rfl] at h
                cases hpf : pc.failure with
                | some fl =>
                  rw [hpf] at h
                  simp only [Option.isNone_some, Bool.not_false, if_true, Prod.mk.injEq, Except.ok.injEq] at h
                  rw [← h.1] at hok
                  cases hok
                | none =>
                  rw [hpf] at h
                  simp only [Option.isNone_none, Bool.not_true, Bool.false_eq_true, if_false] at h
                  have hsound := C74.control_sound hg.closed hg.distinct hg.chokeLast env hlaw hr hg.last hg.notStages
                    hg.value hg.tol hrun hpc hpf
                  have hsame : applyAll pc.configuration st2 = applyAll (surge.configuration ++ pc.configuration) t := by
                    rw [C74.applyAll_append]
                    funext k
                    by_cases hm : k ∈ pc.configuration.map (·.handler)
                    · exact C73.applyAll_mem _ _ _ _ hm
                    · rw [C73.applyAll_not_mem _ _ _ hm, C73.applyAll_not_mem _ _ _ hm,
                        control_keeps hg.closed hpc hpf k hm]
                  rw [hsame] at h
                  cases hrun2 : g.sec.run env.svc (applyAll (surge.configuration ++ pc.configuration) t) s with
                  | error e => rw [hrun2] at h; simp at h
                  | ok o' =>
                    rw [hrun2] at h
                    dsimp only at h
                    refine key (surge.configuration ++ pc.configuration) _ o' _ ?_ ?_ rfl ?_ ?_ hrun2 ?_ h
                    · intro c hc
                      rcases List.mem_append.mp hc with hc | hc
                      · exact List.mem_append_left _ (hsin c hc)
                      · exact hsound.only _ (List.mem_map_of_mem hc)
                    · intro k hk he hm
                      refine hzero k hk he fun hm' => hm ?_
                      rw [List.map_append]
                      exact List.mem_append_left _ hm'
                    · intro k
                      rw [lastSetting_merge, lastSetting_merge, lastSetting_append, Option.or_assoc]
                    · exact hget1 _ _
                    · refine hsound.close _ (C74.pressure_ok.mpr ⟨o', ?_, rfl⟩)
                      rw [← C74.applyAll_append]
                      exact hrun2
            · simp only [hhi, decide_false, Bool.false_eq_true, if_false] at h
              have hlt : o.props.pressure < g.value := by
                rcases lt_trichotomy o.props.pressure g.value with h1 | h1 | h1
                · exact h1
                · exfalso
                  unfold close at hcl
                  rw [h1] at hcl
                  simp only [sub_self, abs_zero, decide_eq_false_iff_not, not_le] at hcl
                  exact absurd hg.tol (not_le.mpr hcl)
                · exact absurd h1 hhi
              simp only [hlt, decide_true, if_true, Prod.mk.injEq, Except.ok.injEq] at h
              rw [← h.1] at hok
              cases hok

theorem oneShaft_parts {secs : List (Sec κ)} {shaft : κ} (h : oneShaft secs = .ok shaft) :
    2 ≤ secs.length ∧ ∀ sec ∈ secs, sec.shaft = shaft := by
  match secs with
  | [] => simp [oneShaft] at h
  | [_] => simp [oneShaft] at h
  | a :: b :: rest =>
    simp only [oneShaft] at h
    split at h
    · simp at h
    · rename_i hany
      split at h
      · simp at h
      · rw [Except.ok.injEq] at h
        refine ⟨by simp, ?_⟩
        intro sec hs
        rcases List.mem_cons.mp hs with rfl | hs
        · exact h
        · rw [← h]
          by_contra hne
          refine hany ?_
          rw [List.any_eq_true]
          exact ⟨sec, hs, by simpa using hne⟩

/-- **Sections on one shaft.** If the solver reports success, all sections have one shaft, which turns with the largest
of the speeds the sections would need one by one, within its bounds; and applying the returned configuration to
sections whose other handlers are reset and running the sections one after the other gives every section its target
pressure. -/
theorem C75_pressures {env : Env κ} (hlaw : Lawful env.svc) {ε : ℚ} (hr : RootWithin env.roots.find ε)
    {secs : List (Sec κ)} {targets : List (ℚ × ℚ)} {b : Boundary} (hp : ∀ g ∈ goals secs targets, Proper env g)
    (ha : ApartBut (goals secs targets)) (hb : ∀ sec ∈ secs, sec.bound = b) {s : Stream} {st st' : Settings κ}
    {sol : Sol κ} (h : pressures env secs targets s st = (.ok sol, st')) (hok : sol.failure = none) :
    targets.length = secs.length ∧ 2 ≤ secs.length ∧
    ∃ shaft ns n, (∀ sec ∈ secs, sec.shaft = shaft) ∧ Alone env (goals secs targets) s ns ∧ n ∈ ns ∧ (∀ x ∈ ns, x ≤ n) ∧
      sol.getConfiguration shaft = .ok n ∧ b.min ≤ n ∧ n ≤ b.max ∧
      ∀ w, AllReset (goals secs targets) sol.configuration w → applyAll sol.configuration w shaft = n ∧
        Delivered env.svc ε (applyAll sol.configuration w) (goals secs targets) s := by
  unfold pressures at h
  cases hone : oneShaft secs with
  | error e => rw [hone] at h; simp at h
  | ok shaft =>
    rw [hone] at h
    dsimp only at h
    obtain ⟨h2, hshaft⟩ := oneShaft_parts hone
    split at h
    · simp at h
    · rename_i hlen
      have hlen := not_not.mp hlen
      have h := guarded_ok h hok
      have hgs : ∀ g ∈ goals secs targets, g.sec.shaft = shaft := by
        intro g hg
        obtain ⟨sec, h1, x, -, rfl⟩ := goal_parts _ _ g hg
        exact hshaft sec h1
      have hgb : ∀ g ∈ goals secs targets, g.sec.bound = b := by
        intro g hg
        obtain ⟨sec, h1, x, -, rfl⟩ := goal_parts _ _ g hg
        exact hb sec h1
      refine ⟨hlen, h2, ?_⟩
      unfold pressuresE at h
      cases hsp : speeds env shaft (goals secs targets) s st with
      | mk a st1 =>
      rw [hsp] at h
      cases a with
      | error e => simp at h
      | ok x =>
        cases x with
        | inl sol1 =>
          exfalso
          simp only [Prod.mk.injEq, Except.ok.injEq] at h
          have hfail : ∀ (gs : List (Goal κ)) (s : Stream) (st st' : Settings κ) (sol : Sol κ),
              speeds env shaft gs s st = (.ok (.inl sol), st') → sol.failure ≠ none := by
            intro gs
            induction gs with
            | nil => intro s st st' sol h; simp [speeds] at h
            | cons g gs ih =>
              intro s st st' sol h
              unfold speeds at h
              generalize findSolution env g.sec g.value g.tol s st = a at h
              obtain ⟨a1, a2⟩ := a
              cases a1 with
              | error e => simp at h
              | ok sol1 =>
                dsimp only at h
                cases hf : sol1.failure with
                | some fl =>
                  simp only [Solution.success, hf, Option.isNone_some, Bool.not_false, if_true, Prod.mk.injEq,
                    Except.ok.injEq, Sum.inl.injEq] at h
                  rw [← h.1, hf]
                  simp
                | none =>
                  simp only [Solution.success, hf, Option.isNone_none, Bool.not_true, Bool.false_eq_true, if_false] at h
                  generalize sol1.getConfiguration shaft = c at h
                  cases c with
                  | error e => simp at h
                  | ok n =>
                    dsimp only at h
                    generalize g.sec.run env.svc (applyAll sol1.configuration a2) s = o at h
                    cases o with
                    | error e => simp at h
                    | ok o =>
                      dsimp only at h
                      have ih := ih o (applyAll sol1.configuration a2)
                      generalize speeds env shaft gs o (applyAll sol1.configuration a2) = d at h ih
                      obtain ⟨d1, d2⟩ := d
                      cases d1 with
                      | error e => simp at h
                      | ok y =>
                        cases y with
                        | inl z => exact ih st' sol h
                        | inr z => simp at h
          exact hfail _ _ _ _ _ hsp (by rw [h.1]; exact hok)
        | inr ns =>
          dsimp only at h
          obtain ⟨hA, hnl, hB⟩ := speeds_alone hlaw hr _ _ _ _ _ hp hgs hgb hsp
          have hne : ns ≠ [] := by
            intro e
            rw [e] at hnl
            have : (goals secs targets).length = secs.length := by simp [goals, hlen]
            simp at hnl
            omega
          obtain ⟨hm, hmax⟩ := maxOf_mem ns hne
          generalize maxOf ns = n at *
          obtain ⟨rest, hl, hin, hget, hd⟩ := atSpeed_delivers hlaw hr _ _ _ _ _ _ hp hgs ha rfl h hok
          have hnone : C38.lastSetting shaft rest = none := lastSetting_none fun c hc => (hin c hc).1
          have hlast : C38.lastSetting shaft sol.configuration = some ⟨shaft, n⟩ := by
            rw [hl, hnone]
            simp [C38.lastSetting]
          refine ⟨shaft, ns, n, hshaft, hA, hm, hmax, ?_, (hB n hm).1, (hB n hm).2, ?_⟩
          · rw [hget ?_, hlast]
            · rfl
            · intro k
              by_cases hk : shaft = k
              · simp [Solution.getConfiguration, C38.lastSetting, hk, valueOf]
              · simp [Solution.getConfiguration, C38.lastSetting, hk, valueOf]
          · intro w hw
            have hs : applyAll sol.configuration w shaft = n := by rw [applyAll_last, hlast]; rfl
            refine ⟨hs, hd _ w hs ?_ hw⟩
            intro g hg k hk he
            rw [hl]
            have : C38.lastSetting k [(⟨shaft, n⟩ : Conf κ)] = none := by
              simp [C38.lastSetting, Ne.symm he]
            rw [this, Option.or_none]

/-! ## History -/

theorem shaftsE_congr (env : Env κ) (r r' : Settings κ) : ∀ (gs : List (Goal κ)) (s : Stream) (acc : List (Conf κ))
    (st st' : Settings κ), (∀ g ∈ gs, Closed g.sec) →
      (shaftsE (withRemains env r) gs s acc st).1 = (shaftsE (withRemains env r') gs s acc st').1 := by
  intro gs
  induction gs with
  | nil => intros; rfl
  | cons g gs ih =>
    intro s acc st st' hc
    have hg := hc g List.mem_cons_self
    have hf := C73.C73_fresh hg env r r' g.value g.tol s st st'
    unfold shaftsE
    cases h1 : findSolution (withRemains env r) g.sec g.value g.tol s st with
    | mk a u =>
    cases h2 : findSolution (withRemains env r') g.sec g.value g.tol s st' with
    | mk a' u' =>
    rw [h1, h2] at hf
    dsimp only at hf
    subst hf
    cases a with
    | error e => rfl
    | ok sol =>
      dsimp only
      cases hs : sol.failure with
      | some fl => simp [Solution.success, hs]
      | none =>
        simp only [Solution.success, hs, Option.isNone_none, Bool.not_true, Bool.false_eq_true, if_false]
        have hag := reset_agree (others_reset hg h1 hs) (others_reset hg h2 hs)
        have hrun : g.sec.run (withRemains env r).svc (applyAll sol.configuration u) s =
            g.sec.run (withRemains env r').svc (applyAll sol.configuration u') s := C73.run_congr hg env.svc hag s
        rw [hrun]
        cases g.sec.run (withRemains env r').svc (applyAll sol.configuration u') s with
        | error e => rfl
        | ok o => exact ih _ _ _ _ fun g' hg' => hc g' (List.mem_cons_of_mem _ hg')

theorem guarded_congr {x y : Except PErr (Sol κ) × Settings κ} (h : x.1 = y.1) : (guarded x).1 = (guarded y).1 := by
  obtain ⟨x1, x2⟩ := x
  obtain ⟨y1, y2⟩ := y
  dsimp only at h
  subst h
  cases x1 with
  | ok sol => rfl
  | error e => unfold guarded; dsimp only; cases caught e <;> rfl

theorem speeds_congr (env : Env κ) (r r' : Settings κ) (shaft : κ) : ∀ (gs : List (Goal κ)) (s : Stream)
    (st st' : Settings κ), (∀ g ∈ gs, Closed g.sec) →
      (speeds (withRemains env r) shaft gs s st).1 = (speeds (withRemains env r') shaft gs s st').1 := by
  intro gs
  induction gs with
  | nil => intros; rfl
  | cons g gs ih =>
    intro s st st' hc
    have hg := hc g List.mem_cons_self
    have hf := C73.C73_fresh hg env r r' g.value g.tol s st st'
    unfold speeds
    cases h1 : findSolution (withRemains env r) g.sec g.value g.tol s st with
    | mk a u =>
    cases h2 : findSolution (withRemains env r') g.sec g.value g.tol s st' with
    | mk a' u' =>
    rw [h1, h2] at hf
    dsimp only at hf
    subst hf
    cases a with
    | error e => rfl
    | ok sol =>
      dsimp only
      cases hs : sol.failure with
      | some fl => simp [Solution.success, hs]
      | none =>
        simp only [Solution.success, hs, Option.isNone_none, Bool.not_true, Bool.false_eq_true, if_false]
        cases sol.getConfiguration shaft with
        | error e => rfl
        | ok n =>
          have hag := reset_agree (others_reset hg h1 hs) (others_reset hg h2 hs)
          have hrun : g.sec.run (withRemains env r).svc (applyAll sol.configuration u) s =
              g.sec.run (withRemains env r').svc (applyAll sol.configuration u') s := C73.run_congr hg env.svc hag s
          dsimp only
          rw [hrun]
          cases g.sec.run (withRemains env r').svc (applyAll sol.configuration u') s with
          | error e => rfl
          | ok o =>
            dsimp only
            have := ih o (applyAll sol.configuration u) (applyAll sol.configuration u')
              fun g' hg' => hc g' (List.mem_cons_of_mem _ hg')
            generalize speeds (withRemains env r) shaft gs o (applyAll sol.configuration u) = d at this ⊢
            generalize speeds (withRemains env r') shaft gs o (applyAll sol.configuration u') = d' at this ⊢
            obtain ⟨d1, d2⟩ := d
            obtain ⟨d1', d2'⟩ := d'
            dsimp only at this
            subst this
            cases d1 with
            | error e => rfl
            | ok y => cases y <;> rfl

theorem atSpeed_congr (env : Env κ) (r r' : Settings κ) (shaft : κ) (n : ℚ) : ∀ (gs : List (Goal κ)) (s : Stream)
    (sol : Sol κ) (st st' : Settings κ), (∀ g ∈ gs, Closed g.sec) → (∀ g ∈ gs, g.sec.shaft = shaft) → sol.failure = none →
      (atSpeed (withRemains env r) shaft n gs s sol st).1 = (atSpeed (withRemains env r') shaft n gs s sol st').1 := by
  intro gs
  induction gs with
  | nil => intros; rfl
  | cons g gs ih =>
    intro s sol st st' hc hsh hsf
    have hg := hc g List.mem_cons_self
    have hshg := hsh g List.mem_cons_self
    have h0 : R g.sec g.sec.surgeHandlers ((resetAll g.sec.controlHandlers st).put shaft n)
        ((resetAll g.sec.controlHandlers st').put shaft n) := by
      intro k hk hns
      by_cases he : k = shaft
      · rw [he, C73.put_self, C73.put_self]
      · have hm : k ∈ g.sec.controlHandlers := by
          unfold handlers at hk
          rw [List.mem_cons, List.mem_append, hshg] at hk
          tauto
        rw [C73.put_other _ _ _ _ he, C73.put_other _ _ _ _ he, C73.resetAll_mem _ _ _ hm, C73.resetAll_mem _ _ _ hm]
    obtain ⟨e1, e2, e3⟩ := C73.antiSurge_congr hg env.svc env.roots r r' s _ _ h0
    unfold atSpeed
    show (match g.sec.antiSurge env.svc env.roots r s ((resetAll g.sec.controlHandlers st).put shaft n) with
      | (.error e, st1) => _ | (.ok surge, st1) => _ : Except PErr (Sol κ) × Settings κ).1 =
      (match g.sec.antiSurge env.svc env.roots r' s ((resetAll g.sec.controlHandlers st').put shaft n) with
      | (.error e, st1) => _ | (.ok surge, st1) => _ : Except PErr (Sol κ) × Settings κ).1
    generalize g.sec.antiSurge env.svc env.roots r s ((resetAll g.sec.controlHandlers st).put shaft n) = a at e1 e2 e3 ⊢
    generalize g.sec.antiSurge env.svc env.roots r' s ((resetAll g.sec.controlHandlers st').put shaft n) = a' at e1 e2 ⊢
    obtain ⟨a1, t⟩ := a
    obtain ⟨a1', t'⟩ := a'
    dsimp only at e1 e2
    subst e1
    cases a1 with
    | error e => rfl
    | ok surge =>
      dsimp only
      have hh := e3 surge rfl
      have hag : R g.sec [] (applyAll surge.configuration t) (applyAll surge.configuration t') :=
        e2.apply_covers _ (by rw [hh]; exact fun k hk => hk)
      rw [combine_success hsf]
      cases hs : surge.failure with
      | some fl => simp [Solution.success]
      | none =>
        simp only [Solution.success, Option.isNone_none, Bool.not_true, Bool.false_eq_true, if_false]
        have hrun : g.sec.run (withRemains env r).svc (applyAll surge.configuration t) s =
            g.sec.run (withRemains env r').svc (applyAll surge.configuration t') s := C73.run_congr hg env.svc hag s
        rw [hrun]
        cases g.sec.run (withRemains env r').svc (applyAll surge.configuration t') s with
        | error e => rfl
        | ok o =>
          dsimp only
          split
          · have hpc := C73.control_congr hg env r r' g.value g.tol s _ _ hag
            cases h1 : g.sec.controlPressure (withRemains env r) g.value g.tol s (applyAll surge.configuration t) with
            | mk b v =>
            cases h2 : g.sec.controlPressure (withRemains env r') g.value g.tol s (applyAll surge.configuration t') with
            | mk b' v' =>
            rw [h1, h2] at hpc
            dsimp only at hpc
            subst hpc
            cases b with
            | error e => rfl
            | ok pc =>
              dsimp only
              rw [combine_success rfl]
              cases hpf : pc.failure with
              | some fl => simp
              | none =>
                simp only [Option.isNone_none, Bool.not_true, Bool.false_eq_true, if_false]
                have hag2 : R g.sec [] (applyAll pc.configuration v) (applyAll pc.configuration v') := by
                  intro k hk _
                  by_cases hm : k ∈ pc.configuration.map (·.handler)
                  · exact C73.applyAll_mem _ _ _ _ hm
                  · rw [C73.applyAll_not_mem _ _ _ hm, C73.applyAll_not_mem _ _ _ hm, control_keeps hg h1 hpf k hm,
                      control_keeps hg h2 hpf k hm, hag k hk (by simp)]
                have hrun2 : g.sec.run (withRemains env r).svc (applyAll pc.configuration v) s =
                    g.sec.run (withRemains env r').svc (applyAll pc.configuration v') s :=
                  C73.run_congr hg env.svc hag2 s
                rw [hrun2]
                cases g.sec.run (withRemains env r').svc (applyAll pc.configuration v') s with
                | error e => rfl
                | ok o' =>
                  exact ih _ _ _ _ (fun g' hg' => hc g' (List.mem_cons_of_mem _ hg'))
                    (fun g' hg' => hsh g' (List.mem_cons_of_mem _ hg')) rfl
          · split
            · rfl
            · exact ih _ _ _ _ (fun g' hg' => hc g' (List.mem_cons_of_mem _ hg'))
                (fun g' hg' => hsh g' (List.mem_cons_of_mem _ hg')) rfl

/-- **Chokes.** Sections on one shaft are only solved when a choke upstream belongs to the first section and a choke
downstream to the last one. -/
theorem C75_choke_places (env : Env κ) {secs : List (Sec κ)} {targets : List (ℚ × ℚ)} {s : Stream} {st st' : Settings κ}
    {sol : Sol κ} (h : pressures env secs targets s st = (.ok sol, st')) (pre post : List (Sec κ)) (sec : Sec κ)
    (hs : secs = pre ++ sec :: post) :
    (∀ c, sec.control = .upstreamChoke c → pre = []) ∧ (∀ c, sec.control = .downstreamChoke c → post = []) := by
  unfold pressures at h
  cases hone : oneShaft secs with
  | error e => rw [hone] at h; simp at h
  | ok shaft =>
    have hp : placementOk secs = true := by
      unfold oneShaft at hone
      split at hone
      · cases hone
      · cases hone
      · split at hone
        · cases hone
        · split at hone
          · cases hone
          · rename_i hn
            simpa using hn
    unfold placementOk at hp
    rw [List.all_eq_true] at hp
    have := hp pre.length (by rw [List.mem_range, hs]; simp)
    rw [hs] at this
    rw [show (pre ++ sec :: post)[pre.length]? = some sec by simp] at this
    constructor
    · intro c hc
      simp only [Option.map_some, hc, beq_iff_eq] at this
      exact List.length_eq_zero_iff.mp this
    · intro c hc
      simp only [Option.map_some, hc, beq_iff_eq, List.length_append, List.length_cons] at this
      exact List.length_eq_zero_iff.mp (by omega)

/-- **History.** The solutions of the three solvers do not depend on what the handlers were set to before. -/
theorem C75_fresh (env : Env κ) (r r' : Settings κ) {secs : List (Sec κ)} (hc : ∀ sec ∈ secs, Closed sec)
    (targets : List (ℚ × ℚ)) (value tol : ℚ) (s : Stream) (st st' : Settings κ) :
    (shafts (withRemains env r) secs targets s st).1 = (shafts (withRemains env r') secs targets s st').1 ∧
    (equalRatio (withRemains env r) secs value tol s st).1 = (equalRatio (withRemains env r') secs value tol s st').1 ∧
    (pressures (withRemains env r) secs targets s st).1 = (pressures (withRemains env r') secs targets s st').1 := by
  have hgs : ∀ targets, ∀ g ∈ goals secs targets, Closed g.sec := by
    intro targets g hg
    obtain ⟨sec, h1, x, -, rfl⟩ := goal_parts _ _ g hg
    exact hc sec h1
  have hshafts : ∀ targets, (shafts (withRemains env r) secs targets s st).1 =
      (shafts (withRemains env r') secs targets s st').1 := by
    intro targets
    unfold shafts
    split
    · rfl
    · exact guarded_congr (shaftsE_congr env r r' _ _ _ _ _ (hgs targets))
  refine ⟨hshafts _, ?_, ?_⟩
  · unfold equalRatio
    split
    · rfl
    · exact hshafts _
  · unfold pressures
    cases hone : oneShaft secs with
    | error e => rfl
    | ok shaft =>
      dsimp only
      split
      · rfl
      · refine guarded_congr ?_
        have hsp := speeds_congr env r r' shaft (goals secs targets) s st st' (hgs targets)
        unfold pressuresE
        generalize speeds (withRemains env r) shaft (goals secs targets) s st = a at hsp ⊢
        generalize speeds (withRemains env r') shaft (goals secs targets) s st' = a' at hsp ⊢
        obtain ⟨a1, a2⟩ := a
        obtain ⟨a1', a2'⟩ := a'
        dsimp only at hsp
        subst hsp
        cases a1 with
        | error e => rfl
        | ok x =>
          cases x with
          | inl sol => rfl
          | inr ns =>
            refine atSpeed_congr env r r' shaft _ _ _ _ _ _ (hgs targets) ?_ rfl
            intro g hg
            obtain ⟨sec, h1, x, -, rfl⟩ := goal_parts _ _ g hg
            exact (oneShaft_parts hone).2 sec h1

/-! ## Examples and deviations -/

/-- A section of one compressor with its loop. -/
def secAt (i : Nat) (c : Compressor) (shaft : Nat) : Sec Nat :=
  ⟨[.mix (i + 1), .comp c, .split (i + 1)], [i + 1], shaft, ⟨30, 100⟩, .asvRate⟩

theorem secAt_closed (i : Nat) (c : Compressor) (shaft : Nat) : Closed (secAt i c shaft) := by
  intro u hu k hk
  simp [secAt] at hu
  rcases hu with rfl | rfl | rfl <;> simp [slotHandler] at hk <;> subst hk <;>
    simp [handlers, secAt, Sec.surgeHandlers, Sec.controlHandlers]

theorem secAt_proper (i : Nat) (c : Compressor) (shaft : Nat) (hs : shaft ≠ i + 1) {value tol : ℚ} (hv : 0 ≤ value)
    (ht : 0 ≤ tol) : Proper C74.place ⟨secAt i c shaft, value, tol⟩ where
  closed := secAt_closed i c shaft
  distinct := ⟨by simpa [secAt, Sec.surgeHandlers, Sec.controlHandlers] using hs, by intro c h; simp [secAt] at h⟩
  chokeLast := by intro c h; simp [secAt] at h
  last := by intro c h; simp [secAt] at h
  bounds := by norm_num [secAt]
  notStages := by simp [secAt]
  value := hv
  tol := ht

/-- Two sections on shafts of their own, and the equal split of a ratio of 64 / 25: the theorems apply. -/
example : (∀ g ∈ goals [secAt 0 C74.sloper 0, secAt 10 C74.sloper 10] [(60, 1 / 1000), (80, 1 / 1000)], Proper C74.place g) ∧
    Apart (goals [secAt 0 C74.sloper 0, secAt 10 C74.sloper 10] [(60, 1 / 1000), (80, 1 / 1000)]) ∧
    C74.told (shafts C74.place [secAt 0 C74.sloper 0, secAt 10 C74.sloper 10] [(60, 1 / 1000), (80, 1 / 1000)]
      (C73.inlet 10) fun _ => 3) = some ([(0, 50), (1, 0), (10, 32 + 1 / 30000000), (11, 60 + 1 / 1000000)], none) ∧
    C74.told (equalRatio C74.place [secAt 0 C74.sloper 0, secAt 10 C74.sloper 10] (256 / 5) (1 / 1000)
      (C73.inlet 10) fun _ => 3) = some ([(0, 30), (1, 240), (10, 30), (11, 24)], none) := by
  refine ⟨?_, ?_, by decide +kernel, by decide +kernel⟩
  · intro g hg
    simp [goals] at hg
    rcases hg with rfl | rfl
    · exact secAt_proper 0 _ _ (by decide) (by norm_num) (by norm_num)
    · exact secAt_proper 10 _ _ (by decide) (by norm_num) (by norm_num)
  · simp [goals, Apart, handlers, secAt, Sec.surgeHandlers, Sec.controlHandlers]

/-- Two sections on one shaft: the first needs speed 40, the second 42; the first recirculates. -/
example : (∀ g ∈ goals [secAt 0 C74.sloper 0, secAt 10 C74.sloper 0] [(50, 1 / 1000), (82, 1 / 1000)], Proper C74.place g) ∧
    ApartBut (goals [secAt 0 C74.sloper 0, secAt 10 C74.sloper 0] [(50, 1 / 1000), (82, 1 / 1000)]) ∧
    C74.told (pressures C74.place [secAt 0 C74.sloper 0, secAt 10 C74.sloper 0] [(50, 1 / 1000), (82, 1 / 1000)]
      (C73.inlet 10) fun _ => 3) = some ([(0, 42), (1, 60), (11, 1 / 1000000)], none) ∧
    (secAt 0 C74.sloper 0).pressure C74.place.svc (fun k => if k = 0 then 42 else if k = 1 then 60 else 0) (C73.inlet 10) =
      .ok 50 := by
  refine ⟨?_, ?_, by decide +kernel, by decide +kernel⟩
  · intro g hg
    simp [goals] at hg
    rcases hg with rfl | rfl
    · exact secAt_proper 0 _ _ (by decide) (by norm_num) (by norm_num)
    · exact secAt_proper 10 _ _ (by decide) (by norm_num) (by norm_num)
  · simp [goals, ApartBut, handlers, secAt, Sec.surgeHandlers, Sec.controlHandlers]

/-- One section only, a second shaft, a choke in the wrong place: not accepted. -/
example : (pressures C74.place [secAt 0 C74.sloper 0] [(50, 0)] (C73.inlet 10) fun _ => 0).1.toOption.isNone ∧
    (pressures C74.place [secAt 0 C74.sloper 0, secAt 10 C74.sloper 10] [(50, 0), (82, 0)] (C73.inlet 10)
      fun _ => 0).1.toOption.isNone ∧
    (pressures C74.place [C73.train, secAt 10 C74.sloper 0] [(50, 0), (82, 0)] (C73.inlet 10) fun _ => 0).1.toOption.isNone ∧
    placementOk [secAt 10 C74.sloper 0, C73.train] = true := by decide +kernel

/-- **The condition is needed.** Nothing stops sections that share a shaft from being given to the solver for sections on
shafts of their own. It reports success and sets the shaft twice; with the second speed the first section is far from
its target. -/
theorem C75_shared_shaft :
    ∃ (secs : List (Sec Nat)) (targets : List (ℚ × ℚ)) (sol : Sol Nat) (p : ℚ),
      (∀ g ∈ goals secs targets, Proper C74.place g) ∧
      (shafts C74.place secs targets (C73.inlet 10) fun _ => 0).1.toOption = some sol ∧ sol.failure = none ∧
      ∃ g, (goals secs targets)[0]? = some g ∧
        (g.sec.run C74.place.svc (applyAll sol.configuration fun _ => 0) (C73.inlet 10)).toOption.map (·.props.pressure) =
          some p ∧ max g.tol (1 / 1000) < |p - g.value| := by
  refine ⟨[secAt 0 C74.sloper 0, secAt 10 C74.sloper 0], [(60, 1 / 1000), (120, 1 / 1000)],
    ⟨[⟨0, 50⟩, ⟨1, 0⟩, ⟨0, 72 + 1 / 30000000⟩, ⟨11, 60 + 1 / 1000000⟩], none⟩,
    82 + 1 / 30000000, ?_, by decide +kernel, rfl, _, rfl, by decide +kernel, ?_⟩
  · intro g hg
    simp [goals] at hg
    rcases hg with rfl | rfl
    · exact secAt_proper 0 _ _ (by decide) (by norm_num) (by norm_num)
    · exact secAt_proper 10 _ _ (by decide) (by norm_num) (by norm_num)
  · norm_num

/-- A compressor that heats the gas the more the faster it turns. -/
def heater : Compressor where
  minFlow := fun _ => 1 / 10
  maxFlow := fun _ => 1
  outlet := fun n s => .ok { s with props := { s.props with
    pressure := s.props.pressure + n - s.mass, density := s.props.pressure + n - s.mass, temperature := n } }
  speed := none

/-- A compressor that gives less pressure the hotter the gas. -/
def fussy : Compressor where
  minFlow := fun _ => 1 / 10
  maxFlow := fun _ => 1
  outlet := fun n s => .ok { s with props := { s.props with
    pressure := s.props.pressure + 2 * n - s.props.temperature,
    density := s.props.pressure + 2 * n - s.props.temperature } }
  speed := none

/-- **Deviation.** The targets are reported as too high with the second section at 92 bara, although the shaft turns
with 42 of its 100 and at speed 44 both sections end exactly on their targets: only the largest of the speeds needed
one by one is tried, and at that speed the second section is fed hotter gas than when its speed was found. -/
theorem C75_not_the_maximum :
    ∃ (secs : List (Sec Nat)) (targets : List (ℚ × ℚ)) (sol : Sol Nat) (w : Settings Nat),
      (∀ g ∈ goals secs targets, Proper C74.place g) ∧ ApartBut (goals secs targets) ∧
      (pressures C74.place secs targets (C73.inlet 10) fun _ => 0).1.toOption = some sol ∧
      sol.failure = some (.finding (.unreachable 92 94 false)) ∧ sol.getConfiguration 0 = .ok 42 ∧
      (∀ sec ∈ secs, sec.bound.min ≤ w sec.shaft ∧ w sec.shaft ≤ sec.bound.max) ∧
      Delivered C74.place.svc 0 w (goals secs targets) (C73.inlet 10) := by
  refine ⟨[secAt 0 heater 0, secAt 10 fussy 0], [(50, 0), (94, 0)],
    ⟨[⟨0, 42⟩, ⟨1, 60⟩, ⟨11, 0⟩], some (.finding (.unreachable 92 94 false))⟩,
    fun k => if k = 0 then 44 else if k = 1 then 120 else 0, ?_, ?_, by decide +kernel, rfl, by decide +kernel, ?_, ?_⟩
  · intro g hg
    simp [goals] at hg
    rcases hg with rfl | rfl
    · exact secAt_proper 0 _ _ (by decide) (by norm_num) (by norm_num)
    · exact secAt_proper 10 _ _ (by decide) (by norm_num) (by norm_num)
  · simp [goals, ApartBut, handlers, secAt, Sec.surgeHandlers, Sec.controlHandlers]
  · intro sec hs
    simp at hs
    rcases hs with rfl | rfl <;> simp [secAt] <;> norm_num
  · have h1 : ∃ o, (secAt 0 heater 0).run C74.place.svc (fun k => if k = 0 then 44 else if k = 1 then 120 else 0)
        (C73.inlet 10) = .ok o ∧ |o.props.pressure - 50| ≤ max 0 0 ∧
        ∃ o', (secAt 10 fussy 0).run C74.place.svc (fun k => if k = 0 then 44 else if k = 1 then 120 else 0) o = .ok o' ∧
          |o'.props.pressure - 94| ≤ max 0 0 := by
      have hd : (match (secAt 0 heater 0).run C74.place.svc (fun k => if k = 0 then 44 else if k = 1 then 120 else 0)
          (C73.inlet 10) with
        | .error _ => none
        | .ok o =>
          match (secAt 10 fussy 0).run C74.place.svc (fun k => if k = 0 then 44 else if k = 1 then 120 else 0) o with
          | .error _ => none
          | .ok o' => some (o.props.pressure, o'.props.pressure)) = some (50, 94) := by decide +kernel
      generalize (secAt 0 heater 0).run C74.place.svc (fun k => if k = 0 then 44 else if k = 1 then 120 else 0)
        (C73.inlet 10) = x at hd
      cases x with
      | error e => cases hd
      | ok o =>
        dsimp only at hd
        refine ⟨o, rfl, ?_⟩
        generalize (secAt 10 fussy 0).run C74.place.svc (fun k => if k = 0 then 44 else if k = 1 then 120 else 0) o = y at hd
        cases y with
        | error e => cases hd
        | ok o' =>
          simp only [Option.some.injEq, Prod.mk.injEq] at hd
          exact ⟨by rw [hd.1]; norm_num, o', rfl, by rw [hd.2]; norm_num⟩
    obtain ⟨o, h1, h2, o', h3, h4⟩ := h1
    exact ⟨o, h1, h2, o', h3, h4, trivial⟩

end Verif.C75
