import Verif.Model.Section
import Verif.Props.C40
import Mathlib.Tactic.Tauto

/-!
# C73: a section solver carries nothing over from earlier evaluations
-/

namespace Verif.C73
open Verif.Process Verif.Finders Verif.Solver Verif.Section

variable {κ : Type} [DecidableEq κ]

/-! ## Specification -/

/-- The handlers a section solver sets: shaft, recirculation loops, choke. -/
def handlers (sec : Sec κ) : List κ := sec.shaft :: (sec.surgeHandlers ++ sec.controlHandlers)

/-- The handler a unit of the section belongs to. -/
def slotHandler : Slot κ → Option κ
  | .mix l => some l
  | .split l => some l
  | .choke h => some h
  | _ => none

/-- All loops and chokes of the section are the ones its strategies control. -/
def Closed (sec : Sec κ) : Prop := ∀ u ∈ sec.slots, ∀ k, slotHandler u = some k → k ∈ handlers sec

/-- The same environment in which searches leave other settings behind. -/
def withRemains (env : Env κ) (r : Settings κ) : Env κ := { env with remains := r }

/-- A use of the solver: a target with its tolerance and an inlet stream, and what the searches leave behind. -/
structure Use (κ : Type) where
  value : ℚ
  tol : ℚ
  inlet : Stream
  remains : Settings κ

/-- The settings after some uses, one after the other. -/
def after (env : Env κ) (sec : Sec κ) : List (Use κ) → Settings κ → Settings κ
  | [], st => st
  | u :: us, st => after env sec us (findSolution (withRemains env u.remains) sec u.value u.tol u.inlet st).2

/-! ## Lemmas -/

/-- The settings agree on the handlers of the section, but perhaps not on the given ones. -/
def R (sec : Sec κ) (X : List κ) (st st' : Settings κ) : Prop := ∀ k ∈ handlers sec, k ∉ X → st k = st' k

theorem R.mono {sec : Sec κ} {X Y : List κ} {st st' : Settings κ} (h : R sec X st st') (hs : ∀ k ∈ X, k ∈ Y) :
    R sec Y st st' := fun k hk hn => h k hk fun hx => hn (hs k hx)

theorem put_self (st : Settings κ) (k : κ) (v : ℚ) : st.put k v k = v := by simp [Settings.put]

theorem put_other (st : Settings κ) (k j : κ) (v : ℚ) (h : j ≠ k) : st.put k v j = st j := by simp [Settings.put, h]

theorem R.put {sec : Sec κ} {X : List κ} {st st' : Settings κ} (h : R sec X st st') (k : κ) (v : ℚ) :
    R sec X (st.put k v) (st'.put k v) := by
  intro j hj hn
  by_cases hk : j = k
  · subst hk; rw [put_self, put_self]
  · rw [put_other _ _ _ _ hk, put_other _ _ _ _ hk, h j hj hn]

theorem R.put_drop {sec : Sec κ} {X : List κ} {st st' : Settings κ} {k : κ} (h : R sec (k :: X) st st') (v : ℚ) :
    R sec X (st.put k v) (st'.put k v) := by
  intro j hj hn
  by_cases hk : j = k
  · subst hk; rw [put_self, put_self]
  · rw [put_other _ _ _ _ hk, put_other _ _ _ _ hk]
    exact h j hj (by simp [hk, hn])

theorem resetAll_mem (ks : List κ) (st : Settings κ) (k : κ) (h : k ∈ ks) : resetAll ks st k = 0 := by
  induction ks generalizing st with
  | nil => cases h
  | cons a ks ih =>
    unfold resetAll
    by_cases hk : k ∈ ks
    · exact ih _ hk
    · have : k = a := by simpa [hk] using h
      subst this
      have : ∀ (ks : List κ) (st : Settings κ), k ∉ ks → resetAll ks st k = st k := by
        intro ks
        induction ks with
        | nil => intros; rfl
        | cons b ks ih' =>
          intro st hn
          unfold resetAll
          rw [ih' _ (fun h => hn (List.mem_cons_of_mem _ h)), put_other _ _ _ _ (fun h => hn (by simp [h]))]
      rw [this _ _ hk, put_self]

theorem resetAll_not_mem (ks : List κ) (st : Settings κ) (k : κ) (h : k ∉ ks) : resetAll ks st k = st k := by
  induction ks generalizing st with
  | nil => rfl
  | cons b ks ih =>
    unfold resetAll
    rw [ih _ (fun hk => h (List.mem_cons_of_mem _ hk)), put_other _ _ _ _ (fun hk => h (by simp [hk]))]

theorem R.reset {sec : Sec κ} {X ks : List κ} {st st' : Settings κ} (h : R sec X st st') :
    R sec (X.filter (· ∉ ks)) (resetAll ks st) (resetAll ks st') := by
  intro k hk hn
  by_cases hm : k ∈ ks
  · rw [resetAll_mem _ _ _ hm, resetAll_mem _ _ _ hm]
  · rw [resetAll_not_mem _ _ _ hm, resetAll_not_mem _ _ _ hm]
    refine h k hk fun hx => hn ?_
    rw [List.mem_filter]
    exact ⟨hx, by simpa using hm⟩

theorem applyAll_mem (cs : List (Conf κ)) (st st' : Settings κ) (k : κ) (h : k ∈ cs.map (·.handler)) :
    applyAll cs st k = applyAll cs st' k := by
  have key : ∀ (cs : List (Conf κ)) (st st' : Settings κ), (st k = st' k ∨ k ∈ cs.map (·.handler)) →
      applyAll cs st k = applyAll cs st' k := by
    intro cs
    induction cs with
    | nil => intro st st' h; rcases h with h | h; exacts [h, by cases h]
    | cons c cs ih =>
      intro st st' h
      unfold applyAll
      apply ih
      by_cases hk : k = c.handler
      · subst hk; left; rw [put_self, put_self]
      · rw [put_other _ _ _ _ hk, put_other _ _ _ _ hk]
        rcases h with h | h
        · exact .inl h
        · rw [List.map_cons, List.mem_cons] at h
          exact .inr (h.resolve_left hk)
  exact key cs st st' (.inr h)

theorem applyAll_not_mem (cs : List (Conf κ)) (st : Settings κ) (k : κ) (h : k ∉ cs.map (·.handler)) :
    applyAll cs st k = st k := by
  induction cs generalizing st with
  | nil => rfl
  | cons c cs ih =>
    rw [List.map_cons, List.mem_cons, not_or] at h
    unfold applyAll
    rw [ih _ h.2, put_other _ _ _ _ h.1]

theorem R.apply {sec : Sec κ} {X : List κ} {st st' : Settings κ} (h : R sec X st st') (cs : List (Conf κ)) :
    R sec (X.filter (· ∉ cs.map (·.handler))) (applyAll cs st) (applyAll cs st') := by
  intro k hk hn
  by_cases hm : k ∈ cs.map (·.handler)
  · exact applyAll_mem _ _ _ _ hm
  · rw [applyAll_not_mem _ _ _ hm, applyAll_not_mem _ _ _ hm]
    refine h k hk fun hx => hn ?_
    rw [List.mem_filter]
    exact ⟨hx, by simpa using hm⟩

theorem R.apply_covers {sec : Sec κ} {X : List κ} {st st' : Settings κ} (h : R sec X st st') (cs : List (Conf κ))
    (hc : ∀ k ∈ X, k ∈ cs.map (·.handler)) : R sec [] (applyAll cs st) (applyAll cs st') := by
  refine (h.apply cs).mono ?_
  intro k hk
  rw [List.mem_filter] at hk
  exact absurd (hc k hk.1) (by simpa using hk.2)

theorem leave_mem (r : Settings κ) (ks : List κ) (st : Settings κ) (k : κ) (h : k ∈ ks) : leave r ks st k = r k := by
  simp [leave, h]

theorem leave_not_mem (r : Settings κ) (ks : List κ) (st : Settings κ) (k : κ) (h : k ∉ ks) :
    leave r ks st k = st k := by simp [leave, h]

theorem R.leave {sec : Sec κ} {X ks : List κ} {st st' : Settings κ} (h : R sec X st st') (r r' : Settings κ) :
    R sec (ks ++ X) (leave r ks st) (leave r' ks st') := by
  intro k hk hn
  rw [List.mem_append, not_or] at hn
  rw [leave_not_mem _ _ _ _ hn.1, leave_not_mem _ _ _ _ hn.1, h k hk hn.2]

/-! ### Runs depend on the handlers only -/

theorem shaft_mem (sec : Sec κ) : sec.shaft ∈ handlers sec := by simp [handlers]

theorem unit_congr {sec : Sec κ} {st st' : Settings κ} (h : R sec [] st st') (u : Slot κ)
    (hu : ∀ k, slotHandler u = some k → k ∈ handlers sec) :
    Slot.unit sec.shaft st u = Slot.unit sec.shaft st' u := by
  cases u with
  | fixed u => rfl
  | mix l => simp only [Slot.unit]; rw [h l (hu l rfl) (by simp)]
  | split l => simp only [Slot.unit]; rw [h l (hu l rfl) (by simp)]
  | choke l => simp only [Slot.unit]; rw [h l (hu l rfl) (by simp)]
  | comp c => simp only [Slot.unit]; rw [h _ (shaft_mem sec) (by simp)]

theorem run_congr {sec : Sec κ} (hc : Closed sec) (svc : Service) {st st' : Settings κ} (h : R sec [] st st')
    (s : Stream) : sec.run svc st s = sec.run svc st' s := by
  unfold Sec.run
  congr 1
  exact List.map_congr_left fun u hu => unit_congr h u (hc u hu)

theorem pressure_congr {sec : Sec κ} (hc : Closed sec) (svc : Service) {st st' : Settings κ} (h : R sec [] st st')
    (s : Stream) : sec.pressure svc st s = sec.pressure svc st' s := by
  unfold Sec.pressure
  rw [run_congr hc svc h]

theorem before_mem : ∀ (us : List (Slot κ)) (i : Nat) (pre : List (Slot κ)) (c : Compressor),
    before us i = some (pre, c) → ∀ u ∈ pre, u ∈ us := by
  intro us
  induction us with
  | nil => intro i pre c h; simp [before] at h
  | cons u us ih =>
    have gen : ∀ i pre c, ((before us i).map fun r => (u :: r.1, r.2)) = some (pre, c) → ∀ v ∈ pre, v ∈ u :: us := by
      intro i pre c h
      rw [Option.map_eq_some_iff] at h
      obtain ⟨⟨p, c'⟩, h1, h2⟩ := h
      cases h2
      intro v hv
      rw [List.mem_cons] at hv ⊢
      rcases hv with hv | hv
      · exact .inl hv
      · exact .inr (ih i p _ h1 v hv)
    intro i pre c h
    cases u with
    | comp c' =>
      cases i with
      | zero => simp only [before] at h; cases h; intro v hv; cases hv
      | succ i => exact gen i pre c h
    | fixed u => exact gen i pre c (by simpa only [before] using h)
    | mix u => exact gen i pre c (by simpa only [before] using h)
    | split u => exact gen i pre c (by simpa only [before] using h)
    | choke u => exact gen i pre c (by simpa only [before] using h)

theorem runTo_congr {sec : Sec κ} (hc : Closed sec) (svc : Service) {st st' : Settings κ} (h : R sec [] st st')
    (s : Stream) (i : Nat) : sec.runTo svc st s i = sec.runTo svc st' s i := by
  unfold Sec.runTo
  cases hb : before sec.slots i with
  | none => rfl
  | some r =>
    obtain ⟨pre, c⟩ := r
    simp only
    rw [List.map_congr_left fun u hu => unit_congr h u (hc u (before_mem _ _ _ _ hb u hu)),
      h _ (shaft_mem sec) (by simp)]

theorem range_congr {sec : Sec κ} (hc : Closed sec) (svc : Service) {st st' : Settings κ} (h : R sec [] st st')
    (s : Stream) (i : Nat) : sec.range svc st s i = sec.range svc st' s i := by
  unfold Sec.range
  rw [runTo_congr hc svc h]

theorem stage_congr {sec : Sec κ} (hc : Closed sec) (svc : Service) {st st' : Settings κ} (h : R sec [] st st')
    (s : Stream) (i : Nat) : sec.stage svc st s i = sec.stage svc st' s i := by
  unfold Sec.stage
  rw [runTo_congr hc svc h]

/-! ### Anti-surge -/

theorem sweep_congr {sec : Sec κ} (hc : Closed sec) (svc : Service) (s : Stream) (pick : Boundary → ℚ) :
    ∀ (ls : List κ) (i : Nat) (st st' : Settings κ), R sec [] st st' →
      (sweep svc sec s pick i ls st).1 = (sweep svc sec s pick i ls st').1 ∧
      R sec [] (sweep svc sec s pick i ls st).2 (sweep svc sec s pick i ls st').2 := by
  intro ls
  induction ls with
  | nil => intro i st st' h; exact ⟨rfl, h⟩
  | cons l ls ih =>
    intro i st st' h
    unfold sweep
    rw [range_congr hc svc h]
    cases sec.range svc st' s i with
    | error e => exact ⟨rfl, h⟩
    | ok b =>
      obtain ⟨h1, h2⟩ := ih (i + 1) _ _ (h.put l (pick b))
      dsimp only
      generalize sweep svc sec s pick (i + 1) ls (st.put l (pick b)) = a at h1 h2 ⊢
      generalize sweep svc sec s pick (i + 1) ls (st'.put l (pick b)) = a' at h1 h2 ⊢
      obtain ⟨a1, a2⟩ := a
      obtain ⟨b1, b2⟩ := a'
      simp only at h1 h2
      subst h1
      cases a1 with
      | error e => exact ⟨rfl, h2⟩
      | ok cs => exact ⟨rfl, h2⟩

theorem sweep_handlers (svc : Service) (sec : Sec κ) (s : Stream) (pick : Boundary → ℚ) :
    ∀ (ls : List κ) (i : Nat) (st : Settings κ) (cs : List (Conf κ)),
      (sweep svc sec s pick i ls st).1 = .ok cs → cs.map (·.handler) = ls ∧ (sweep svc sec s pick i ls st).2 = applyAll cs st := by
  intro ls
  induction ls with
  | nil => intro i st cs h; cases h; exact ⟨rfl, rfl⟩
  | cons l ls ih =>
    intro i st cs h
    unfold sweep at h ⊢
    cases hr : sec.range svc st s i with
    | error e => rw [hr] at h; cases h
    | ok b =>
      rw [hr] at h
      dsimp only at h ⊢
      have := ih (i + 1) (st.put l (pick b))
      generalize sweep svc sec s pick (i + 1) ls (st.put l (pick b)) = a at h this ⊢
      obtain ⟨a1, a2⟩ := a
      cases a1 with
      | error e => cases h
      | ok cs' =>
        cases h
        obtain ⟨g1, g2⟩ := this cs' rfl
        exact ⟨by rw [List.map_cons, g1], g2⟩

theorem sweep_other (svc : Service) (sec : Sec κ) (s : Stream) (pick : Boundary → ℚ) (k : κ) :
    ∀ (ls : List κ) (i : Nat) (st : Settings κ), k ∉ ls → (sweep svc sec s pick i ls st).2 k = st k := by
  intro ls
  induction ls with
  | nil => intro i st _; rfl
  | cons l ls ih =>
    intro i st hn
    rw [List.mem_cons, not_or] at hn
    unfold sweep
    cases sec.range svc st s i with
    | error e => rfl
    | ok b =>
      have := ih (i + 1) (st.put l (pick b)) hn.2
      dsimp only
      generalize sweep svc sec s pick (i + 1) ls (st.put l (pick b)) = a at this ⊢
      obtain ⟨a1, a2⟩ := a
      rw [put_other _ _ _ _ hn.1] at this
      cases a1 with
      | error e => exact this
      | ok cs => exact this

theorem R.of_reset {sec : Sec κ} {ks : List κ} {st st' : Settings κ} (h : R sec ks st st') :
    R sec [] (resetAll ks st) (resetAll ks st') := by
  refine h.reset (ks := ks) |>.mono ?_
  intro k hk
  rw [List.mem_filter] at hk
  exact absurd hk.1 (by simpa using hk.2)

theorem individual_congr {sec : Sec κ} (hc : Closed sec) (svc : Service) (s : Stream) (st st' : Settings κ)
    (h : R sec sec.loops st st') :
    (individualAntiSurge svc sec s st).1 = (individualAntiSurge svc sec s st').1 ∧
    R sec sec.loops (individualAntiSurge svc sec s st).2 (individualAntiSurge svc sec s st').2 ∧
    ∀ sol, (individualAntiSurge svc sec s st).1 = .ok sol → sol.configuration.map (·.handler) = sec.loops := by
  obtain ⟨h1, h2⟩ := sweep_congr hc svc s (·.min) sec.loops 0 _ _ h.of_reset
  have h3 := sweep_handlers svc sec s (·.min) sec.loops 0 (resetAll sec.loops st)
  unfold individualAntiSurge
  generalize sweep svc sec s (·.min) 0 sec.loops (resetAll sec.loops st) = a at h1 h2 h3 ⊢
  generalize sweep svc sec s (·.min) 0 sec.loops (resetAll sec.loops st') = a' at h1 h2 ⊢
  obtain ⟨a1, a2⟩ := a
  obtain ⟨b1, b2⟩ := a'
  simp only at h1 h2
  subst h1
  have h4 : R sec sec.loops a2 b2 := h2.mono (by simp)
  cases a1 with
  | error e => exact ⟨rfl, h4, fun sol hs => by cases hs⟩
  | ok cs => exact ⟨rfl, h4, fun sol hs => by cases hs; exact (h3 cs rfl).1⟩

theorem common_congr {sec : Sec κ} (hc : Closed sec) (svc : Service) (roots : Roots) (r r' : Settings κ) (l : κ)
    (s : Stream) (st st' : Settings κ) (h : R sec [l] st st') :
    (commonAntiSurge svc roots r sec l s st).1 = (commonAntiSurge svc roots r' sec l s st').1 ∧
    R sec [l] (commonAntiSurge svc roots r sec l s st).2 (commonAntiSurge svc roots r' sec l s st').2 ∧
    ∀ sol, (commonAntiSurge svc roots r sec l s st).1 = .ok sol → sol.configuration.map (·.handler) = [l] := by
  have hput : ∀ x, R sec [] (st.put l x) (st'.put l x) := fun x => h.put_drop x
  have hf : (fun x => sec.pressure svc (st.put l x) s) = fun x => sec.pressure svc (st'.put l x) s :=
    funext fun x => pressure_congr hc svc (hput x) s
  unfold commonAntiSurge
  rw [range_congr hc svc (hput 0), hf]
  cases sec.range svc (st'.put l 0) s 0 with
  | error e => exact ⟨rfl, (hput 0).mono (by simp), fun sol hs => by cases hs⟩
  | ok b =>
    dsimp only
    have hl : R sec [l] (leave r [l] st) (leave r' [l] st') := (h.leave r r').mono (by simp)
    cases findRecirc (1 / 100) 20 roots.find b none (fun x => sec.pressure svc (st'.put l x) s) with
    | error e => exact ⟨rfl, hl, fun sol hs => by cases hs⟩
    | ok fd => exact ⟨rfl, hl, fun sol hs => by cases hs; rfl⟩

theorem antiSurge_congr {sec : Sec κ} (hc : Closed sec) (svc : Service) (roots : Roots) (r r' : Settings κ)
    (s : Stream) (st st' : Settings κ) (h : R sec sec.surgeHandlers st st') :
    (sec.antiSurge svc roots r s st).1 = (sec.antiSurge svc roots r' s st').1 ∧
    R sec sec.surgeHandlers (sec.antiSurge svc roots r s st).2 (sec.antiSurge svc roots r' s st').2 ∧
    ∀ sol, (sec.antiSurge svc roots r s st).1 = .ok sol → sol.configuration.map (·.handler) = sec.surgeHandlers := by
  unfold Sec.antiSurge Sec.surgeHandlers at *
  cases hcon : sec.control with
  | commonAsv l => rw [hcon] at h; exact common_congr hc svc roots r r' l s st st' h
  | downstreamChoke c => rw [hcon] at h; exact individual_congr hc svc s st st' h
  | upstreamChoke c => rw [hcon] at h; exact individual_congr hc svc s st st' h
  | asvRate => rw [hcon] at h; exact individual_congr hc svc s st st' h
  | asvPressure => rw [hcon] at h; exact individual_congr hc svc s st st' h

/-! ### Pressure control -/

theorem chokeFunc_congr {sec : Sec κ} (hc : Closed sec) (svc : Service) (roots : Roots) (r r' : Settings κ) (c : κ)
    (s : Stream) (st st' : Settings κ) (h : R sec (c :: sec.surgeHandlers) st st') (x : ℚ) :
    (chokeFunc svc roots r sec c s st x).1 = (chokeFunc svc roots r' sec c s st' x).1 ∧
    (chokeFunc svc roots r sec c s st x).2.1 = (chokeFunc svc roots r' sec c s st' x).2.1 := by
  obtain ⟨h1, h2, h3⟩ := antiSurge_congr hc svc roots r r' s _ _ (h.put_drop x)
  unfold chokeFunc
  generalize sec.antiSurge svc roots r s (st.put c x) = a at h1 h2 h3 ⊢
  generalize sec.antiSurge svc roots r' s (st'.put c x) = a' at h1 h2 ⊢
  obtain ⟨a1, a2⟩ := a
  obtain ⟨b1, b2⟩ := a'
  simp only at h1 h2
  subst h1
  cases a1 with
  | error e => exact ⟨rfl, rfl⟩
  | ok sol =>
    refine ⟨?_, rfl⟩
    dsimp only
    exact pressure_congr hc svc (h2.apply_covers _ fun k hk => by rw [h3 sol rfl]; exact hk) s

theorem minAchievable_congr {sec : Sec κ} (hc : Closed sec) (svc : Service) (s : Stream) (st st' : Settings κ)
    (h : R sec [] st st') :
    (minAchievable svc sec s st).1 = (minAchievable svc sec s st').1 ∧
    R sec [] (minAchievable svc sec s st).2 (minAchievable svc sec s st').2 := by
  obtain ⟨h1, h2⟩ := sweep_congr hc svc s (·.max) sec.loops 0 _ _ h
  unfold minAchievable
  generalize sweep svc sec s (·.max) 0 sec.loops st = a at h1 h2 ⊢
  generalize sweep svc sec s (·.max) 0 sec.loops st' = a' at h1 h2 ⊢
  obtain ⟨a1, a2⟩ := a
  obtain ⟨b1, b2⟩ := a'
  simp only at h1 h2
  subst h1
  cases a1 with
  | error e => exact ⟨rfl, h2⟩
  | ok cs =>
    dsimp only
    rw [pressure_congr hc svc h2]
    cases sec.pressure svc b2 s with
    | error e => exact ⟨rfl, h2⟩
    | ok p => exact ⟨rfl, (h2.mono (by simp) : R sec sec.loops a2 b2).of_reset⟩

theorem fromFraction_congr {sec : Sec κ} (hc : Closed sec) (svc : Service) (s : Stream) (st st' : Settings κ)
    (h : R sec sec.loops st st') (x : ℚ) :
    (fromFraction svc sec s st x).1 = (fromFraction svc sec s st' x).1 ∧
    R sec [] (fromFraction svc sec s st x).2 (fromFraction svc sec s st' x).2 :=
  sweep_congr hc svc s _ _ _ _ _ h.of_reset

theorem outletAt_congr {sec : Sec κ} (hc : Closed sec) (svc : Service) (s : Stream) (st st' : Settings κ)
    (h : R sec sec.loops st st') (x : ℚ) : outletAt svc sec s st x = outletAt svc sec s st' x := by
  obtain ⟨h1, h2⟩ := fromFraction_congr hc svc s st st' h x
  unfold outletAt
  generalize fromFraction svc sec s st x = a at h1 h2 ⊢
  generalize fromFraction svc sec s st' x = a' at h1 h2 ⊢
  obtain ⟨a1, a2⟩ := a
  obtain ⟨b1, b2⟩ := a'
  simp only at h1 h2
  subst h1
  cases a1 with
  | error e => rfl
  | ok cs => exact pressure_congr hc svc ((h2.apply cs).mono (by simp)) s

theorem controlRate_congr {sec : Sec κ} (hc : Closed sec) (svc : Service) (roots : Roots) (r r' : Settings κ)
    (value : ℚ) (s : Stream) (st st' : Settings κ) (h : R sec [] st st') :
    (controlRate svc roots r sec value s st).1 = (controlRate svc roots r' sec value s st').1 := by
  obtain ⟨h1, h2⟩ := minAchievable_congr hc svc s _ _ (h.mono (by simp) : R sec sec.loops st st').of_reset
  unfold controlRate
  generalize minAchievable svc sec s (resetAll sec.loops st) = a at h1 h2 ⊢
  generalize minAchievable svc sec s (resetAll sec.loops st') = a' at h1 h2 ⊢
  obtain ⟨a1, a2⟩ := a
  obtain ⟨b1, b2⟩ := a'
  simp only at h1 h2
  subst h1
  cases a1 with
  | error e => rfl
  | ok cp =>
    obtain ⟨cs, p⟩ := cp
    dsimp only
    by_cases hp : p > value
    · rw [if_pos hp, if_pos hp]
    · rw [if_neg hp, if_neg hp]
      have hl : R sec sec.loops a2 b2 := h2.mono (by simp)
      have hf : (fun x => (outletAt svc sec s a2 x).map (· - value)) = fun x => (outletAt svc sec s b2 x).map (· - value) :=
        funext fun x => by rw [outletAt_congr hc svc s a2 b2 hl x]
      rw [hf]
      cases roots.find ⟨0, 1⟩ (fun x => (outletAt svc sec s b2 x).map (· - value)) with
      | error e => rfl
      | ok x =>
        obtain ⟨g1, -⟩ := fromFraction_congr hc svc s a2 b2 hl x
        dsimp only
        generalize fromFraction svc sec s a2 x = u at g1 ⊢
        generalize fromFraction svc sec s b2 x = v at g1 ⊢
        obtain ⟨u1, u2⟩ := u
        obtain ⟨v1, v2⟩ := v
        simp only at g1
        subst g1
        cases u1 <;> rfl

theorem stages_congr {sec : Sec κ} (hc : Closed sec) (svc : Service) (roots : Roots) (r r' : Settings κ)
    (target : Nat → ℚ) (s : Stream) : ∀ (ls : List κ) (i : Nat) (acc : List (Conf κ)) (st st' : Settings κ),
      R sec [] st st' → (stages svc roots r sec target s i ls acc st).1 = (stages svc roots r' sec target s i ls acc st').1 := by
  intro ls
  induction ls with
  | nil => intros; rfl
  | cons l ls ih =>
    intro i acc st st' h
    have hf : (fun x => sec.stage svc (st.put l x) s i) = fun x => sec.stage svc (st'.put l x) s i :=
      funext fun x => stage_congr hc svc (h.put l x) s i
    unfold stages
    rw [range_congr hc svc h, hf]
    cases sec.range svc st' s i with
    | error e => rfl
    | ok b =>
      dsimp only
      cases findRecirc (1 / 100) 20 roots.find b (some (target i, pressureTol)) (fun x => sec.stage svc (st'.put l x) s i) with
      | error e => rfl
      | ok fd =>
        obtain ⟨x, fl⟩ := fd
        cases fl with
        | some fl => rfl
        | none => exact ih _ _ _ _ (h.put l _)

theorem controlPressure_congr {sec : Sec κ} (hc : Closed sec) (svc : Service) (roots : Roots) (ratio : ℚ → Nat → ℚ)
    (r r' : Settings κ) (value : ℚ) (s : Stream) (st st' : Settings κ) (h : R sec [] st st') :
    (Section.controlPressure svc roots ratio r sec value s st).1 =
      (Section.controlPressure svc roots ratio r' sec value s st').1 := by
  obtain ⟨h1, h2⟩ := minAchievable_congr hc svc s _ _ (h.mono (by simp) : R sec sec.loops st st').of_reset
  unfold Section.controlPressure
  generalize minAchievable svc sec s (resetAll sec.loops st) = a at h1 h2 ⊢
  generalize minAchievable svc sec s (resetAll sec.loops st') = a' at h1 h2 ⊢
  obtain ⟨a1, a2⟩ := a
  obtain ⟨b1, b2⟩ := a'
  simp only at h1 h2
  subst h1
  cases a1 with
  | error e => rfl
  | ok cp =>
    obtain ⟨cs, p⟩ := cp
    dsimp only
    by_cases hp : p > value
    · rw [if_pos hp, if_pos hp]
    · rw [if_neg hp, if_neg hp]
      exact stages_congr hc svc roots r r' _ s _ _ _ _ _ h2

theorem control_congr {sec : Sec κ} (hc : Closed sec) (env : Env κ) (r r' : Settings κ) (value tol : ℚ) (s : Stream)
    (st st' : Settings κ) (h : R sec [] st st') :
    (sec.controlPressure (withRemains env r) value tol s st).1 = (sec.controlPressure (withRemains env r') value tol s st').1 := by
  unfold Sec.controlPressure
  cases sec.control with
  | downstreamChoke c =>
    have hf : (fun x => sec.pressure env.svc (st.put c x) s) = fun x => sec.pressure env.svc (st'.put c x) s :=
      funext fun x => pressure_congr hc env.svc (h.put c x) s
    simp only [controlDownstream, withRemains]
    rw [hf]
    cases applyDownstream value tol (fun x => sec.pressure env.svc (st'.put c x) s) <;> rfl
  | upstreamChoke c =>
    have hcf := fun x => chokeFunc_congr hc env.svc env.roots r r' c s st st' (h.mono (by simp)) x
    have hf : (fun x => (chokeFunc env.svc env.roots r sec c s st x).1) =
        fun x => (chokeFunc env.svc env.roots r' sec c s st' x).1 := funext fun x => (hcf x).1
    simp only [controlUpstream, withRemains]
    rw [hf]
    cases findUpstream env.roots.find value (upstreamBound s) (fun x => (chokeFunc env.svc env.roots r' sec c s st' x).1) with
    | error e => rfl
    | ok fd =>
      dsimp only
      generalize upstreamLast env.roots value (upstreamBound s) (fun x => (chokeFunc env.svc env.roots r' sec c s st' x).1) fd = y
      have g := (hcf y).2
      generalize chokeFunc env.svc env.roots r sec c s st y = u at g ⊢
      generalize chokeFunc env.svc env.roots r' sec c s st' y = v at g ⊢
      obtain ⟨u1, u2, u3⟩ := u
      obtain ⟨v1, v2, v3⟩ := v
      simp only at g
      subst g
      cases u2 <;> rfl
  | commonAsv l =>
    have hf : (fun x => sec.pressure env.svc (st.put l x) s) = fun x => sec.pressure env.svc (st'.put l x) s :=
      funext fun x => pressure_congr hc env.svc (h.put l x) s
    simp only [controlCommon, withRemains]
    rw [hf, range_congr hc env.svc (h.put l 0)]
    cases sec.range env.svc (st'.put l 0) s 0 with
    | error e => rfl
    | ok b =>
      dsimp only
      cases findRecirc (1 / 100) 20 env.roots.find b (some (value, tol)) (fun x => sec.pressure env.svc (st'.put l x) s) <;> rfl
  | asvRate => exact controlRate_congr hc env.svc env.roots r r' value s st st' h
  | asvPressure => exact controlPressure_congr hc env.svc env.roots env.ratio r r' value s st st' h

/-! ## Properties -/

/-- **Probes of the speed search.** The outlet pressure the solver sees at a speed does not depend on the speed and the
recirculation rates in force before the probe, nor on what searches leave behind. -/
theorem C73_probe {sec : Sec κ} (hc : Closed sec) (env : Env κ) (r r' : Settings κ) (s : Stream) (st st' : Settings κ)
    (h : ∀ k ∈ handlers sec, k ∉ sec.shaft :: sec.surgeHandlers → st k = st' k) (x : ℚ) :
    (speedFunc (withRemains env r) sec s st x).1 = (speedFunc (withRemains env r') sec s st' x).1 := by
  have h0 : R sec [] ((resetAll sec.surgeHandlers st).put sec.shaft x) ((resetAll sec.surgeHandlers st').put sec.shaft x) := by
    refine R.put_drop ?_ x
    have := R.reset (ks := sec.surgeHandlers) (h : R sec (sec.shaft :: sec.surgeHandlers) st st')
    refine this.mono ?_
    intro k hk
    rw [List.mem_filter] at hk
    obtain ⟨h1, h2⟩ := hk
    have h2 : k ∉ sec.surgeHandlers := by simpa using h2
    rw [List.mem_cons] at h1 ⊢
    exact .inl (h1.resolve_right h2)
  obtain ⟨g1, g2, g3⟩ := antiSurge_congr hc env.svc env.roots r r' s _ _ (h0.mono (by simp))
  unfold speedFunc
  simp only [withRemains]
  rw [pressure_congr hc env.svc h0]
  generalize (resetAll sec.surgeHandlers st).put sec.shaft x = t at g1 g2 g3 ⊢
  generalize (resetAll sec.surgeHandlers st').put sec.shaft x = t' at g1 g2 ⊢
  cases sec.pressure env.svc t' s with
  | ok p => rfl
  | error e =>
    cases e with
    | surge a b =>
      dsimp only
      generalize sec.antiSurge env.svc env.roots r s t = a at g1 g2 g3 ⊢
      generalize sec.antiSurge env.svc env.roots r' s t' = a' at g1 g2 ⊢
      obtain ⟨a1, a2⟩ := a
      obtain ⟨b1, b2⟩ := a'
      simp only at g1 g2
      subst g1
      cases a1 with
      | error e => rfl
      | ok sol => exact pressure_congr hc env.svc (g2.apply_covers _ fun k hk => by rw [g3 sol rfl]; exact hk) s
    | _ => rfl

/-- **Nothing is carried over.** The solution for a target and an inlet stream is the same whatever the shaft, the
recirculation loops and the choke were set to before, and whatever searches leave behind while solving. -/
theorem C73_fresh {sec : Sec κ} (hc : Closed sec) (env : Env κ) (r r' : Settings κ) (value tol : ℚ) (s : Stream)
    (st st' : Settings κ) :
    (findSolution (withRemains env r) sec value tol s st).1 = (findSolution (withRemains env r') sec value tol s st').1 := by
  have hE : (findSolutionE (withRemains env r) sec value tol s st).1 =
      (findSolutionE (withRemains env r') sec value tol s st').1 := by
    have h0 : R sec (sec.shaft :: sec.surgeHandlers) (resetAll sec.controlHandlers st) (resetAll sec.controlHandlers st') := by
      intro k hk hn
      have hm : k ∈ sec.controlHandlers := by
        unfold handlers at hk
        rw [List.mem_cons] at hk hn
        rw [List.mem_append] at hk
        tauto
      rw [resetAll_mem _ _ _ hm, resetAll_mem _ _ _ hm]
    have h1 : R sec (sec.shaft :: sec.surgeHandlers)
        (leave r (sec.shaft :: sec.surgeHandlers) (resetAll sec.controlHandlers st))
        (leave r' (sec.shaft :: sec.surgeHandlers) (resetAll sec.controlHandlers st')) :=
      (h0.leave (ks := sec.shaft :: sec.surgeHandlers) r r').mono (by intro k hk; rw [List.mem_append] at hk; tauto)
    have hs : findSpeedSolution (withRemains env r) sec value s (resetAll sec.controlHandlers st) =
        findSpeedSolution (withRemains env r') sec value s (resetAll sec.controlHandlers st') := by
      unfold findSpeedSolution
      have : (fun x => (speedFunc (withRemains env r) sec s (resetAll sec.controlHandlers st) x).1) =
          fun x => (speedFunc (withRemains env r') sec s (resetAll sec.controlHandlers st') x).1 :=
        funext fun x => C73_probe hc env r r' s _ _ h0 x
      rw [this]
      rfl
    unfold findSolutionE
    dsimp only
    rw [hs]
    simp only [withRemains] at *
    generalize leave r (sec.shaft :: sec.surgeHandlers) (resetAll sec.controlHandlers st) = t at h1 ⊢
    generalize leave r' (sec.shaft :: sec.surgeHandlers) (resetAll sec.controlHandlers st') = t' at h1 ⊢
    cases findSpeedSolution { env with remains := r' } sec value s (resetAll sec.controlHandlers st') with
    | error e => rfl
    | ok fd =>
      dsimp only
      unfold afterSpeed
      cases isFatal fd.failure with
      | true => rfl
      | false =>
        obtain ⟨g1, g2, g3⟩ := antiSurge_congr hc env.svc env.roots r r' s _ _ (h1.put_drop fd.config)
        simp only [Bool.false_eq_true, if_false]
        generalize sec.antiSurge env.svc env.roots r s (t.put sec.shaft fd.config) = a at g1 g2 g3 ⊢
        generalize sec.antiSurge env.svc env.roots r' s (t'.put sec.shaft fd.config) = a' at g1 g2 ⊢
        obtain ⟨a1, a2⟩ := a
        obtain ⟨b1, b2⟩ := a'
        simp only at g1 g2
        subst g1
        cases a1 with
        | error e => rfl
        | ok sol =>
          dsimp only
          cases sol.success with
          | false => rfl
          | true =>
            cases isTooLow fd.failure with
            | true => rfl
            | false =>
              simp only [Bool.not_true, Bool.false_eq_true, if_false]
              unfold finish
              have h2 : R sec [] (applyAll (⟨sec.shaft, fd.config⟩ :: sol.configuration) a2)
                  (applyAll (⟨sec.shaft, fd.config⟩ :: sol.configuration) b2) := by
                refine g2.apply_covers _ fun k hk => ?_
                rw [List.map_cons, g3 sol rfl]
                exact List.mem_cons_of_mem _ hk
              simp only
              rw [run_congr hc env.svc h2]
              have h3 := control_congr hc env r r' value tol s _ _ h2
              simp only [withRemains] at h3
              generalize applyAll (⟨sec.shaft, fd.config⟩ :: sol.configuration) a2 = u at h3 ⊢
              generalize applyAll (⟨sec.shaft, fd.config⟩ :: sol.configuration) b2 = v at h3 ⊢
              cases sec.run env.svc v s with
              | error e => rfl
              | ok o =>
                dsimp only
                cases close value tol o.props.pressure with
                | true => rfl
                | false =>
                  simp only [Bool.false_eq_true, if_false]
                  generalize sec.controlPressure { env with remains := r } value tol s u = p at h3 ⊢
                  generalize sec.controlPressure { env with remains := r' } value tol s v = q at h3 ⊢
                  obtain ⟨p1, p2⟩ := p
                  obtain ⟨q1, q2⟩ := q
                  simp only at h3
                  subst h3
                  cases p1 <;> rfl
  unfold findSolution
  generalize findSolutionE (withRemains env r) sec value tol s st = a at hE ⊢
  generalize findSolutionE (withRemains env r') sec value tol s st' = b at hE ⊢
  obtain ⟨a1, a2⟩ := a
  obtain ⟨b1, b2⟩ := b
  simp only at hE
  subst hE
  cases a1 with
  | ok sol => rfl
  | error e => dsimp only; cases caught e <;> rfl

/-- **Any history.** After any sequence of other uses of the solver, a use gives what it would have given first. -/
theorem C73_history {sec : Sec κ} (hc : Closed sec) (env : Env κ) (us : List (Use κ)) (u : Use κ) (st : Settings κ) :
    (findSolution (withRemains env u.remains) sec u.value u.tol u.inlet (after env sec us st)).1 =
      (findSolution (withRemains env u.remains) sec u.value u.tol u.inlet st).1 :=
  C73_fresh hc env _ _ _ _ _ _ _

/-! ### Handlers of other sections -/

theorem individual_other (svc : Service) (sec : Sec κ) (s : Stream) (st : Settings κ) (k : κ) (h : k ∉ sec.loops) :
    (individualAntiSurge svc sec s st).2 k = st k := by
  have := sweep_other svc sec s (·.min) k sec.loops 0 (resetAll sec.loops st) h
  unfold individualAntiSurge
  generalize sweep svc sec s (·.min) 0 sec.loops (resetAll sec.loops st) = a at this ⊢
  obtain ⟨a1, a2⟩ := a
  rw [resetAll_not_mem _ _ _ h] at this
  cases a1 <;> exact this

theorem common_other (svc : Service) (roots : Roots) (r : Settings κ) (sec : Sec κ) (l : κ) (s : Stream)
    (st : Settings κ) (k : κ) (h : k ≠ l) : (commonAntiSurge svc roots r sec l s st).2 k = st k := by
  unfold commonAntiSurge
  cases sec.range svc (st.put l 0) s 0 with
  | error e => exact put_other _ _ _ _ h
  | ok b =>
    dsimp only
    cases findRecirc (1 / 100) 20 roots.find b none (fun x => sec.pressure svc (st.put l x) s) with
    | error e => exact leave_not_mem _ _ _ _ (by simpa using h)
    | ok fd => exact leave_not_mem _ _ _ _ (by simpa using h)

theorem antiSurge_other (svc : Service) (roots : Roots) (r : Settings κ) (sec : Sec κ) (s : Stream) (st : Settings κ)
    (k : κ) (h : k ∉ sec.surgeHandlers) : (sec.antiSurge svc roots r s st).2 k = st k := by
  unfold Sec.antiSurge
  unfold Sec.surgeHandlers at h
  cases hcon : sec.control with
  | commonAsv l => rw [hcon] at h; exact common_other _ _ _ _ _ _ _ _ (by simpa using h)
  | downstreamChoke c => rw [hcon] at h; exact individual_other _ _ _ _ _ h
  | upstreamChoke c => rw [hcon] at h; exact individual_other _ _ _ _ _ h
  | asvRate => rw [hcon] at h; exact individual_other _ _ _ _ _ h
  | asvPressure => rw [hcon] at h; exact individual_other _ _ _ _ _ h

theorem minAchievable_other (svc : Service) (sec : Sec κ) (s : Stream) (st : Settings κ) (k : κ) (h : k ∉ sec.loops) :
    (minAchievable svc sec s st).2 k = st k := by
  have := sweep_other svc sec s (·.max) k sec.loops 0 st h
  unfold minAchievable
  generalize sweep svc sec s (·.max) 0 sec.loops st = a at this ⊢
  obtain ⟨a1, a2⟩ := a
  cases a1 with
  | error e => exact this
  | ok cs =>
    dsimp only
    cases sec.pressure svc a2 s with
    | error e => exact this
    | ok p => exact (resetAll_not_mem _ _ _ h).trans this

theorem stages_other (svc : Service) (roots : Roots) (r : Settings κ) (sec : Sec κ) (target : Nat → ℚ) (s : Stream)
    (k : κ) : ∀ (ls : List κ) (i : Nat) (acc : List (Conf κ)) (st : Settings κ), k ∉ ls →
      (stages svc roots r sec target s i ls acc st).2 k = st k := by
  intro ls
  induction ls with
  | nil => intros; rfl
  | cons l ls ih =>
    intro i acc st hn
    rw [List.mem_cons, not_or] at hn
    unfold stages
    cases sec.range svc st s i with
    | error e => rfl
    | ok b =>
      dsimp only
      cases findRecirc (1 / 100) 20 roots.find b (some (target i, pressureTol)) (fun x => sec.stage svc (st.put l x) s i) with
      | error e => exact leave_not_mem _ _ _ _ (by simpa using hn.1)
      | ok fd =>
        obtain ⟨x, fl⟩ := fd
        cases fl with
        | some fl => exact leave_not_mem _ _ _ _ (by simpa using hn.1)
        | none => exact (ih _ _ _ hn.2).trans (put_other _ _ _ _ hn.1)

theorem control_other (env : Env κ) (sec : Sec κ) (value tol : ℚ) (s : Stream) (st : Settings κ) (k : κ)
    (h : k ∉ sec.surgeHandlers) (h' : k ∉ sec.controlHandlers) :
    (sec.controlPressure env value tol s st).2 k = st k := by
  unfold Sec.controlHandlers at h'
  unfold Sec.controlPressure
  cases hcon : sec.control with
  | downstreamChoke c =>
    rw [hcon] at h'
    have hk : k ≠ c := by simpa using h'
    simp only [controlDownstream]
    cases applyDownstream value tol (fun x => sec.pressure env.svc (st.put c x) s) <;> exact put_other _ _ _ _ hk
  | upstreamChoke c =>
    rw [hcon] at h'
    have hk : k ≠ c := by simpa using h'
    simp only [controlUpstream]
    cases findUpstream env.roots.find value (upstreamBound s) (fun x => (chokeFunc env.svc env.roots env.remains sec c s st x).1) with
    | error e => exact leave_not_mem _ _ _ _ (by simp [hk, h])
    | ok fd =>
      dsimp only
      have g : ∀ x, (chokeFunc env.svc env.roots env.remains sec c s st x).2.2 k = st k := by
        intro x
        have g1 := antiSurge_other env.svc env.roots env.remains sec s (st.put c x) k h
        have g2 : ∀ sol, (sec.antiSurge env.svc env.roots env.remains s (st.put c x)).1 = .ok sol →
            k ∉ sol.configuration.map (·.handler) := by
          intro sol hs
          unfold Sec.antiSurge at hs
          rw [hcon] at hs
          simp only at hs
          unfold Sec.surgeHandlers at h
          rw [hcon] at h
          simp only at h
          unfold individualAntiSurge at hs
          have g3 := sweep_handlers env.svc sec s (·.min) sec.loops 0 (resetAll sec.loops (st.put c x))
          generalize sweep env.svc sec s (·.min) 0 sec.loops (resetAll sec.loops (st.put c x)) = a at hs g3
          obtain ⟨a1, a2⟩ := a
          cases a1 with
          | error e => cases hs
          | ok cs => cases hs; rw [(g3 cs rfl).1]; exact h
        rw [put_other _ _ _ _ hk] at g1
        unfold chokeFunc
        generalize sec.antiSurge env.svc env.roots env.remains s (st.put c x) = a at g1 g2 ⊢
        obtain ⟨a1, a2⟩ := a
        cases a1 with
        | error e => exact g1
        | ok sol => exact (applyAll_not_mem _ _ _ (g2 sol rfl)).trans g1
      generalize upstreamLast env.roots value (upstreamBound s) (fun x => (chokeFunc env.svc env.roots env.remains sec c s st x).1) fd = y
      have gy := g y
      generalize chokeFunc env.svc env.roots env.remains sec c s st y = u at gy ⊢
      obtain ⟨u1, u2, u3⟩ := u
      cases u2 <;> exact gy
  | commonAsv l =>
    rw [hcon] at h'
    have hk : k ≠ l := by simpa using h'
    simp only [controlCommon]
    cases sec.range env.svc (st.put l 0) s 0 with
    | error e => exact put_other _ _ _ _ hk
    | ok b =>
      dsimp only
      cases findRecirc (1 / 100) 20 env.roots.find b (some (value, tol)) (fun x => sec.pressure env.svc (st.put l x) s) <;>
        exact leave_not_mem _ _ _ _ (by simpa using hk)
  | asvRate =>
    rw [hcon] at h'
    simp only at h' ⊢
    have g := minAchievable_other env.svc sec s (resetAll sec.loops st) k h'
    rw [resetAll_not_mem _ _ _ h'] at g
    unfold controlRate
    generalize minAchievable env.svc sec s (resetAll sec.loops st) = a at g ⊢
    obtain ⟨a1, a2⟩ := a
    simp only at g
    cases a1 with
    | error e => exact g
    | ok cp =>
      obtain ⟨cs, p⟩ := cp
      dsimp only
      by_cases hp : p > value
      · rw [if_pos hp]; exact g
      · rw [if_neg hp]
        cases env.roots.find ⟨0, 1⟩ (fun x => (outletAt env.svc sec s a2 x).map (· - value)) with
        | error e => exact (leave_not_mem _ _ _ _ h').trans g
        | ok x =>
          have g2 := sweep_other env.svc sec s (atFraction x) k sec.loops 0 (resetAll sec.loops a2) h'
          rw [resetAll_not_mem _ _ _ h', g] at g2
          dsimp only
          unfold fromFraction
          generalize sweep env.svc sec s (atFraction x) 0 sec.loops (resetAll sec.loops a2) = u at g2 ⊢
          obtain ⟨u1, u2⟩ := u
          cases u1 <;> exact g2
  | asvPressure =>
    rw [hcon] at h'
    simp only at h' ⊢
    have g := minAchievable_other env.svc sec s (resetAll sec.loops st) k h'
    rw [resetAll_not_mem _ _ _ h'] at g
    unfold Section.controlPressure
    generalize minAchievable env.svc sec s (resetAll sec.loops st) = a at g ⊢
    obtain ⟨a1, a2⟩ := a
    simp only at g
    cases a1 with
    | error e => exact g
    | ok cp =>
      obtain ⟨cs, p⟩ := cp
      dsimp only
      by_cases hp : p > value
      · rw [if_pos hp]; exact g
      · rw [if_neg hp]
        exact (stages_other _ _ _ _ _ _ _ _ _ _ _ h').trans g

/-- **Other sections.** Solving a section leaves the settings of every handler that is not its own as they were. -/
theorem C73_others {sec : Sec κ} (hc : Closed sec) (env : Env κ) (value tol : ℚ) (s : Stream) (st : Settings κ) (k : κ)
    (h : k ∉ handlers sec) : (findSolution env sec value tol s st).2 k = st k := by
  have h1 : k ≠ sec.shaft := fun he => h (by rw [he]; exact shaft_mem sec)
  have h2 : k ∉ sec.surgeHandlers := fun hm => h (by simp [handlers, hm])
  have h3 : k ∉ sec.controlHandlers := fun hm => h (by simp [handlers, hm])
  have hE : (findSolutionE env sec value tol s st).2 k = st k := by
    unfold findSolutionE
    dsimp only
    have g0 : leave env.remains (sec.shaft :: sec.surgeHandlers) (resetAll sec.controlHandlers st) k = st k := by
      rw [leave_not_mem _ _ _ _ (by simp [h1, h2]), resetAll_not_mem _ _ _ h3]
    generalize leave env.remains (sec.shaft :: sec.surgeHandlers) (resetAll sec.controlHandlers st) = t at g0 ⊢
    cases findSpeedSolution env sec value s (resetAll sec.controlHandlers st) with
    | error e => exact g0
    | ok fd =>
      dsimp only
      unfold afterSpeed
      cases isFatal fd.failure with
      | true => exact g0
      | false =>
        simp only [Bool.false_eq_true, if_false]
        have g1 := antiSurge_other env.svc env.roots env.remains sec s (t.put sec.shaft fd.config) k h2
        rw [put_other _ _ _ _ h1, g0] at g1
        obtain ⟨-, -, g2⟩ := antiSurge_congr hc env.svc env.roots env.remains env.remains s (t.put sec.shaft fd.config)
          (t.put sec.shaft fd.config) (fun _ _ _ => rfl)
        generalize sec.antiSurge env.svc env.roots env.remains s (t.put sec.shaft fd.config) = a at g1 g2 ⊢
        obtain ⟨a1, a2⟩ := a
        cases a1 with
        | error e => exact g1
        | ok sol =>
          dsimp only
          cases sol.success with
          | false => exact g1
          | true =>
            cases isTooLow fd.failure with
            | true => exact g1
            | false =>
              simp only [Bool.not_true, Bool.false_eq_true, if_false]
              have g3 : applyAll (⟨sec.shaft, fd.config⟩ :: sol.configuration) a2 k = st k := by
                rw [applyAll_not_mem _ _ _ (by rw [List.map_cons, g2 sol rfl]; simp [h1, h2])]
                exact g1
              unfold finish
              generalize applyAll (⟨sec.shaft, fd.config⟩ :: sol.configuration) a2 = u at g3 ⊢
              cases sec.run env.svc u s with
              | error e => exact g3
              | ok o =>
                dsimp only
                cases close value tol o.props.pressure with
                | true => exact g3
                | false =>
                  simp only [Bool.false_eq_true, if_false]
                  have g4 := control_other env sec value tol s u k h2 h3
                  rw [g3] at g4
                  generalize sec.controlPressure env value tol s u = p at g4 ⊢
                  obtain ⟨p1, p2⟩ := p
                  cases p1 <;> exact g4
  unfold findSolution
  generalize findSolutionE env sec value tol s st = a at hE ⊢
  obtain ⟨a1, a2⟩ := a
  cases a1 with
  | ok sol => exact hE
  | error e => dsimp only; cases caught e <;> exact hE

/-! ## Examples -/

/-- A fluid. -/
def gas : FluidModel := ⟨.SRK, fun _ => 1 / 11⟩

/-- An inlet stream of 20 bara with the given mass rate. -/
def inlet (mass : ℚ) : Stream := ⟨gas, ⟨1, 20, 20, 1, 1, 1, 4 / 5⟩, mass⟩

/-- A compressor that adds its speed to the pressure, for flows from a tenth of the speed to the speed. -/
def pusher : Compressor where
  minFlow := fun n => n / 10
  maxFlow := fun n => n
  outlet := fun n s => .ok { s with props := { s.props with pressure := s.props.pressure + n, density := s.props.pressure + n } }
  speed := none

/-- A root finder that is exact for linear functions. -/
def linear : RootFinder := fun b g => do
  let u ← g b.min
  let v ← g b.max
  return b.min - u * (b.max - b.min) / (v - u)

/-- An environment with the ideal service. -/
def world : Env Nat := ⟨C40.ideal, ⟨linear, fun b _ => b.max⟩, fun x _ => x, fun _ => 7⟩

/-- One compressor (speed 10 to 100) with its recirculation loop and a choke behind it. -/
def train : Sec Nat := ⟨[.mix 1, .comp pusher, .split 1, .choke 2], [1], 0, ⟨10, 100⟩, .downstreamChoke 2⟩

theorem train_closed : Closed train := by
  intro u hu k hk
  simp [train] at hu
  rcases hu with rfl | rfl | rfl | rfl <;> simp [slotHandler] at hk <;> subst hk <;>
    simp [handlers, train, Sec.surgeHandlers, Sec.controlHandlers]

/-- From settings left by anything: 50 is the speed for 70 bara; the flow 4 is below the minimum 5, so the loop
recirculates; the choke stays open. -/
example : ((findSolution world train 70 (1 / 1000) (inlet 80) (fun _ => 13)).1.toOption.map
    fun sol => (sol.configuration.map fun c => (c.handler, c.value), sol.failure)) =
    some ([(0, 50), (1, 24 / (4 / 5) * 20 + 1 / 1000000)], none) := by decide +kernel

/-- A target below what the smallest speed gives is met by choking. -/
example : ((findSolution world train 25 (1 / 1000) (inlet 80) (fun _ => -3)).1.toOption.map
    fun sol => (sol.configuration.map fun c => (c.handler, c.value), sol.failure)) =
    some ([(0, 10), (1, 0), (2, 5)], none) := by decide +kernel

/-- **The condition is needed.** Settings of a choke that no strategy of the section controls are carried over: the same target and inlet
give another speed. -/
theorem C73_uncontrolled :
    ∃ (sec : Sec Nat) (st st' : Settings Nat), ¬ Closed sec ∧
      (findSolution world sec 70 (1 / 1000) (inlet 80) st).1.toOption ≠
        (findSolution world sec 70 (1 / 1000) (inlet 80) st').1.toOption := by
  refine ⟨{ train with control := .asvRate }, fun _ => 0, fun _ => 5, ?_, by decide +kernel⟩
  intro h
  have := h (.choke 2) (by simp [train]) 2 rfl
  simp [handlers, train, Sec.surgeHandlers, Sec.controlHandlers] at this

end Verif.C73
