import Verif.Model.Java
import Mathlib.Data.List.Basic

/-!
# C110: the life of the Java service

The service is compared with a machine that knows no gateways, processes or caches: it is off, or on with one virtual
machine, and every answer is computed anew by that machine.
-/

set_option linter.unusedSectionVars false

namespace Verif.C110
open Verif.Cache Verif.Java
open Verif.Time (dictSet)

variable {κ ν : Type} [DecidableEq κ]

/-! ### Specification -/

/-- The service that is on: its object, how it was made, and its virtual machine. -/
structure On where
  object : Nat
  kind : Kind
  config : Config
  jvm : Jvm

/-- The state of the simple machine: how many objects and processes there have been, the service if it is on, the
configuration for the next start, and the names of the caches. -/
structure Simple where
  made : Nat
  started : Nat
  on : Option On
  config : Option Config
  names : List String

/-- The simple machine at the start. -/
def Simple.start : Simple := ⟨0, 0, none, none, []⟩

/-- Whether the service is on, with a Java process, for this object. -/
def Simple.Serves (s : Simple) (h : Nat) : Prop := ∃ o, s.on = some o ∧ o.object = h ∧ o.kind = .py4j

instance (s : Simple) (h : Nat) : Decidable (s.Serves h) :=
  match ho : s.on with
  | none => isFalse (fun ⟨o, h1, _⟩ => by rw [ho] at h1; cases h1)
  | some o =>
    if hh : o.object = h ∧ o.kind = .py4j then isTrue ⟨o, ho, hh⟩
    else isFalse (fun ⟨o', h1, h2⟩ => by rw [ho] at h1; cases h1; exact hh h2)

/-- One call to the simple machine. -/
def Simple.step (answer : String → Jvm → κ → ν) (s : Simple) : Op κ → Simple × Except Err (Out ν)
  | .configure c =>
    match s.on with
    | some _ => (s, .error .runtime)
    | none => ({ s with config := some c }, .ok .done)
  | .reset => ({ s with config := none }, .ok .done)
  | .init k launches =>
    match s.on, k with
    | some o, k => if o.kind = k then (s, .ok (.object o.object)) else (s, .error .programming)
    | none, .jpype =>
      ({ s with made := s.made + 1, on := some ⟨s.made, .jpype, Config.default, .inner⟩ }, .ok (.object s.made))
    | none, .py4j =>
      if launches then
        ({ s with
            made := s.made + 1
            started := s.started + 1
            on := some ⟨s.made, .py4j, s.config.getD Config.default, .process s.started⟩ }, .ok (.object s.made))
      else (s, .error .gateway)
  | .exit h _ =>
    if s.made ≤ h then (s, .error .nobody)
    else
      match s.on with
      | some o =>
        if o.object = h ∧ o.kind = .py4j ∧ o.config.shutdownOnExit = true then ({ s with on := none }, .ok .done)
        else (s, .ok .done)
      | none => (s, .ok .done)
  | .shutdown h _ =>
    if s.made ≤ h then (s, .error .nobody)
    else if s.Serves h then ({ s with on := none }, .ok .done) else (s, .ok .done)
  | .current =>
    (s, match s.on with
      | some o => .ok (.object o.object)
      | none => .error .programming)
  | .create name _ => ({ s with names := if name ∈ s.names then s.names else s.names ++ [name] }, .ok .done)
  | .find name key =>
    (s, if name ∈ s.names then
        match s.on with
        | some o => .ok (.value (answer name o.jvm key))
        | none => .error .programming
      else .error .key)

/-- Calls to the simple machine. -/
def Simple.run (answer : String → Jvm → κ → ν) (s : Simple) : List (Op κ) → Simple × List (Except Err (Out ν))
  | [] => (s, [])
  | op :: ops =>
    let r := s.step answer op
    let rest := r.1.run answer ops
    (rest.1, r.2 :: rest.2)

/-- A call in which no gateway refuses to shut down. -/
def Clean : Op κ → Prop
  | .exit _ fails => fails = false
  | .shutdown _ fails => fails = false
  | _ => True

/-! ### Caches -/

theorem evict_sub (n : Int) : ∀ (l : List (κ × ν)) (e : κ × ν), e ∈ (evict n l).1 → e ∈ l
  | [], e, h => by simp [evict] at h
  | x :: l, e, h => by
    unfold evict at h
    split at h
    · exact List.mem_cons_of_mem _ (evict_sub n l e h)
    · exact h

theorem evict_ok (n : Int) (hn : 0 ≤ n) : ∀ l : List (κ × ν), (evict n l).2.2 = false
  | [] => by simp [evict]; omega
  | x :: l => by
    unfold evict
    split
    · exact evict_ok n hn l
    · rfl

theorem moveToEnd_sub (k : κ) (l : List (κ × ν)) (e : κ × ν) (h : e ∈ moveToEnd k l) : e ∈ l := by
  unfold moveToEnd at h
  rw [List.mem_append, List.mem_filter, List.mem_filter] at h
  exact h.elim (·.1) (·.1)

theorem dictSet_sub (k : κ) (v : ν) : ∀ (l : List (κ × ν)) (e : κ × ν), e ∈ dictSet k v l → e = (k, v) ∨ e ∈ l
  | [], e, h => by
    unfold dictSet at h
    left
    simpa using h
  | (k', v') :: l, e, h => by
    unfold dictSet at h
    split at h
    · rename_i hk
      rcases List.mem_cons.mp h with h | h
      · left
        rw [h, hk]
      · exact .inr (List.mem_cons_of_mem _ h)
    · rcases List.mem_cons.mp h with h | h
      · right
        rw [h]
        exact List.mem_cons_self
      · rcases dictSet_sub k v l e h with h | h
        · exact .inl h
        · exact .inr (List.mem_cons_of_mem _ h)

theorem put_facts (c : LRU κ ν) (k : κ) (v : ν) (hc : 0 ≤ c.maxSize) : (c.put k v).2 = .ok () ∧
    (c.put k v).1.maxSize = c.maxSize ∧ ∀ e ∈ (c.put k v).1.entries, e = (k, v) ∨ e ∈ c.entries := by
  unfold LRU.put
  by_cases h0 : c.maxSize = 0
  · rw [if_pos h0]
    exact ⟨rfl, rfl, fun e he => .inr he⟩
  · rw [if_neg h0]
    dsimp only
    rw [evict_ok _ hc]
    refine ⟨by simp, rfl, fun e he => ?_⟩
    rcases dictSet_sub _ _ _ _ (evict_sub _ _ _ he) with h | h
    · exact .inl h
    · right
      split at h
      · exact moveToEnd_sub _ _ _ h
      · exact h

theorem mem_of_lookup {α β : Type} [DecidableEq α] : ∀ (l : List (α × β)) (k : α) (v : β), l.lookup k = some v → (k, v) ∈ l
  | [], k, v, h => by cases h
  | (a, b) :: l, k, v, h => by
    by_cases hk : k = a
    · subst hk
      simp at h
      subst h
      exact List.mem_cons_self
    · have hk' : (k == a) = false := by simpa using hk
      rw [List.lookup_cons, hk'] at h
      exact List.mem_cons_of_mem _ (mem_of_lookup l k v h)

theorem lookup_none {α β : Type} [DecidableEq α] : ∀ (l : List (α × β)) (k : α), l.lookup k = none ↔ k ∉ l.map (·.1)
  | [], k => by simp
  | (a, b) :: l, k => by
    by_cases hk : k = a
    · subst hk
      simp
    · have hk' : (k == a) = false := by simpa using hk
      rw [List.lookup_cons, hk', List.map_cons, List.mem_cons]
      simp only [hk, false_or]
      exact lookup_none l k

theorem get_facts (c : LRU κ ν) (k : κ) : (c.get k).1.maxSize = c.maxSize ∧ (∀ e ∈ (c.get k).1.entries, e ∈ c.entries) ∧
    ∀ v, (c.get k).2 = some v → (k, v) ∈ c.entries := by
  unfold LRU.get
  split
  · rename_i v hv
    refine ⟨rfl, fun e he => moveToEnd_sub _ _ _ he, fun v' h => ?_⟩
    cases h
    exact mem_of_lookup _ _ _ hv
  · exact ⟨rfl, fun e he => he, fun v h => by cases h⟩

/-! ### All executions -/

/-- What holds after all calls, whether or not gateways refuse to shut down. -/
structure Sound (answer : String → Jvm → κ → ν) (w : World κ ν) : Prop where
  service : ∀ i, w.service = some i → ∃ x, w.insts[i]? = some x ∧
    (x.kind = .jpype ∨ x.kind = .py4j ∧ ∃ p q, x.gateway = some p ∧ w.procs[p]? = some q ∧ q.alive = true)
  sizes : ∀ e ∈ w.caches, 0 ≤ e.2.maxSize
  fresh : ∀ e ∈ w.caches, ∀ x ∈ e.2.entries, ∃ j, module? w = .ok j ∧ x.2 = answer e.1 j x.1

theorem sound_start (answer : String → Jvm → κ → ν) : Sound answer (World.start : World κ ν) where
  service := fun i h => by cases h
  sizes := fun e h => by cases h
  fresh := fun e h => by cases h

theorem off_empty {answer : String → Jvm → κ → ν} {w : World κ ν} (h : Sound answer w) (hs : w.service = none) :
    ∀ e ∈ w.caches, e.2.entries = [] := by
  intro e he
  rw [List.eq_nil_iff_forall_not_mem]
  intro x hx
  obtain ⟨j, hj, -⟩ := h.fresh e he x hx
  unfold module? at hj
  rw [hs] at hj
  cases hj

theorem clearAll_mem (r : Registry κ ν) (e : String × LRU κ ν) (h : e ∈ r.clearAll) :
    ∃ c, (e.1, c) ∈ r ∧ e.2.maxSize = c.maxSize ∧ e.2.entries = [] := by
  unfold Registry.clearAll at h
  obtain ⟨x, hx, rfl⟩ := List.mem_map.mp h
  exact ⟨x.2, hx, rfl, rfl⟩

/-- A state without entries in its caches is sound when its service is. -/
theorem sound_empty (answer : String → Jvm → κ → ν) (w : World κ ν)
    (h1 : ∀ i, w.service = some i → ∃ x, w.insts[i]? = some x ∧
      (x.kind = .jpype ∨ x.kind = .py4j ∧ ∃ p q, x.gateway = some p ∧ w.procs[p]? = some q ∧ q.alive = true))
    (h2 : ∀ e ∈ w.caches, 0 ≤ e.2.maxSize ∧ e.2.entries = []) : Sound answer w where
  service := h1
  sizes := fun e he => (h2 e he).1
  fresh := fun e he x hx => by rw [(h2 e he).2] at hx; cases hx

theorem endGateway_caches (w : World κ ν) (fails : Bool) : (endGateway w fails).caches = w.caches := by
  unfold endGateway
  split
  · split <;> rfl
  · rfl

theorem sound_shutdown {answer : String → Jvm → κ → ν} {w : World κ ν} (h : Sound answer w) (o : Nat) (fails : Bool) :
    Sound answer (shutdown w o fails).1 := by
  unfold shutdown
  split
  · exact h
  · rename_i x hx
    split
    · refine sound_empty answer _ h.service fun e he => ?_
      obtain ⟨c, hc, h1, h2⟩ := clearAll_mem _ _ he
      exact ⟨h1 ▸ h.sizes _ hc, h2⟩
    · split
      · exact h
      · refine sound_empty answer _ (fun i hi => by cases hi) fun e he => ?_
        dsimp only at he
        rw [endGateway_caches] at he
        obtain ⟨c, hc, h1, h2⟩ := clearAll_mem _ _ he
        exact ⟨h1 ▸ h.sizes _ hc, h2⟩

theorem modify_mem (r : Registry κ ν) (name : String) (f : LRU κ ν → LRU κ ν) (e : String × LRU κ ν)
    (h : e ∈ r.modify name f) : e ∈ r ∨ e.1 = name ∧ ∃ c, e.2 = f c := by
  unfold Registry.modify at h
  obtain ⟨x, hx, rfl⟩ := List.mem_map.mp h
  by_cases hn : x.1 = name
  · rw [if_pos hn]
    exact .inr ⟨hn, x.2, rfl⟩
  · rw [if_neg hn]
    exact .inl hx

/-- Other caches do not matter for the module. -/
theorem module_caches (w : World κ ν) (r : Registry κ ν) : module? { w with caches := r } = module? w := rfl

theorem sound_caches {answer : String → Jvm → κ → ν} {w : World κ ν} (h : Sound answer w) (name : String) (c : LRU κ ν)
    (hc : 0 ≤ c.maxSize) (he : ∀ x ∈ c.entries, ∃ j, module? w = .ok j ∧ x.2 = answer name j x.1) :
    Sound answer { w with caches := w.caches.modify name fun _ => c } where
  service := h.service
  sizes := fun e hm => by
    rcases modify_mem w.caches name (fun _ => c) e hm with hm | ⟨-, d, hd⟩
    · exact h.sizes e hm
    · rw [hd]; exact hc
  fresh := fun e hm x hx => by
    rw [module_caches]
    rcases modify_mem w.caches name (fun _ => c) e hm with hm | ⟨hn, d, hd⟩
    · exact h.fresh e hm x hx
    · rw [hd] at hx
      rw [hn]
      exact he x hx

/-- What is found is what the machine in use says, and soundness is kept. -/
theorem find_facts {answer : String → Jvm → κ → ν} {w : World κ ν} (h : Sound answer w) (name : String) (key : κ) :
    Sound answer (find answer w name key).1 ∧
    (find answer w name key).2 = (if name ∈ w.caches.map (·.1) then
      (module? w).map (fun j => .value (answer name j key)) else .error .key) ∧
    ∃ r, (find answer w name key).1 = { w with caches := r } ∧ r.map (·.1) = w.caches.map (·.1) := by
  have hnames : ∀ (r : Registry κ ν) (c : LRU κ ν), (r.modify name fun _ => c).map (·.1) = r.map (·.1) := by
    intro r c
    unfold Registry.modify
    rw [List.map_map]
    refine List.map_congr_left fun e _ => ?_
    dsimp only [Function.comp]
    split <;> rfl
  unfold find
  cases hl : w.caches.lookup name with
  | none =>
    dsimp only
    rw [if_neg ((lookup_none _ _).mp hl)]
    exact ⟨h, rfl, w.caches, rfl, rfl⟩
  | some c =>
    have hmem := mem_of_lookup _ _ _ hl
    have hin : name ∈ w.caches.map (·.1) := List.mem_map.mpr ⟨_, hmem, rfl⟩
    obtain ⟨g1, g2, g3⟩ := get_facts c key
    have hsize : 0 ≤ (c.get key).1.maxSize := g1 ▸ h.sizes _ hmem
    have hold : ∀ x ∈ (c.get key).1.entries, ∃ j, module? w = .ok j ∧ x.2 = answer name j x.1 :=
      fun x hx => h.fresh _ hmem x (g2 x hx)
    dsimp only
    rw [if_pos hin]
    cases hg : (c.get key).2 with
    | some v =>
      dsimp only
      obtain ⟨j, hj, hv⟩ := h.fresh _ hmem _ (g3 v hg)
      dsimp only at hv
      refine ⟨sound_caches h name _ hsize hold, ?_, _, rfl, hnames _ _⟩
      rw [hj, hv]
      rfl
    | none =>
      dsimp only
      cases hm : module? w with
      | error e =>
        dsimp only
        exact ⟨sound_caches h name _ hsize hold, rfl, _, rfl, hnames _ _⟩
      | ok j =>
        dsimp only
        obtain ⟨p1, p2, p3⟩ := put_facts (c.get key).1 key (answer name j key) hsize
        rw [p1]
        dsimp only
        refine ⟨sound_caches h name _ (by rw [p2]; exact hsize) fun x hx => ?_, rfl, _, rfl, hnames _ _⟩
        rcases p3 x hx with rfl | hx
        · exact ⟨j, hm, rfl⟩
        · exact hold x hx

theorem sound_step {answer : String → Jvm → κ → ν} {w : World κ ν} (h : Sound answer w) (op : Op κ) :
    Sound answer (step answer w op).1 := by
  cases op with
  | configure c =>
    simp only [step, configure]
    split
    · exact h
    · exact ⟨h.service, h.sizes, h.fresh⟩
  | reset => exact ⟨h.service, h.sizes, h.fresh⟩
  | init k launches =>
    simp only [step, init]
    cases hs : w.service with
    | some i =>
      dsimp only
      split
      · split <;> exact h
      · exact h
    | none =>
      have hempty := off_empty h hs
      cases k with
      | jpype =>
        refine sound_empty answer _ (fun i hi => ?_) fun e he => ⟨h.sizes e he, hempty e he⟩
        have hi := Option.some.inj hi
        subst hi
        exact ⟨⟨.jpype, Config.default, none⟩, by simp [startJpype], .inl rfl⟩
      | py4j =>
        simp only [startPy4j]
        cases launches with
        | false => exact h
        | true =>
          rw [if_pos rfl]
          refine sound_empty answer _ (fun i hi => ?_) fun e he => ⟨h.sizes e he, hempty e he⟩
          have hi := Option.some.inj hi
          subst hi
          exact ⟨⟨.py4j, w.config.getD Config.default, some w.procs.length⟩, by simp,
            .inr ⟨rfl, w.procs.length, ⟨(w.config.getD Config.default).memory, true⟩, rfl, by simp, rfl⟩⟩
  | exit o fails =>
    simp only [step, Java.exit]
    split
    · exact h
    · split
      · exact h
      · split
        · exact sound_shutdown h o fails
        · exact h
  | shutdown o fails => exact sound_shutdown h o fails
  | current => exact h
  | create name size =>
    simp only [step, Java.create, Registry.create]
    split
    · exact h
    · rename_i hn
      refine ⟨h.service, fun e he => ?_, fun e he x hx => ?_⟩
      · rcases dictSet_sub _ _ _ _ he with rfl | he
        · exact Int.natCast_nonneg _
        · exact h.sizes e he
      · rcases dictSet_sub _ _ _ _ he with rfl | he
        · cases hx
        · exact h.fresh e he x hx
  | find name key => exact (find_facts h name key).1

theorem sound_run (answer : String → Jvm → κ → ν) : ∀ (ops : List (Op κ)) (w : World κ ν), Sound answer w →
    Sound answer (run answer w ops).1
  | [], _, h => h
  | op :: ops, _, h => sound_run answer ops _ (sound_step h op)

/-! ### Executions in which gateways shut down when told to -/

/-- The service is the simple machine. -/
structure Refines (w : World κ ν) (s : Simple) : Prop where
  made : w.insts.length = s.made
  started : w.procs.length = s.started
  config : w.config = s.config
  names : w.caches.map (·.1) = s.names
  off : s.on = none → w.service = none
  on : ∀ o, s.on = some o → w.service = some o.object ∧
    ((o.kind = .jpype ∧ o.jvm = .inner ∧ ∃ c, w.insts[o.object]? = some ⟨.jpype, c, none⟩) ∨
      (o.kind = .py4j ∧ ∃ p, o.jvm = .process p ∧ w.insts[o.object]? = some ⟨.py4j, o.config, some p⟩ ∧
        w.procs[p]? = some ⟨o.config.memory, true⟩))
  old : ∀ i x, w.insts[i]? = some x → (∀ o, s.on = some o → o.object ≠ i) → x.kind = .py4j ∧ x.gateway = none
  alive : ∀ p q, w.procs[p]? = some q → q.alive = true → ∃ o, s.on = some o ∧ o.jvm = .process p

theorem refines_start : Refines (World.start : World κ ν) Simple.start where
  made := rfl
  started := rfl
  config := rfl
  names := rfl
  off := fun _ => rfl
  on := fun o h => by cases h
  old := fun i x h => by simp [World.start] at h
  alive := fun p q h => by simp [World.start] at h

theorem refines_module {w : World κ ν} {s : Simple} (h : Refines w s) :
    module? w = match s.on with
      | some o => .ok o.jvm
      | none => .error .programming := by
  unfold module?
  cases ho : s.on with
  | none => rw [h.off ho]
  | some o =>
    obtain ⟨h1, h2⟩ := h.on o ho
    rw [h1]
    rcases h2 with ⟨-, hj, c, hc⟩ | ⟨-, p, hj, hp, -⟩
    · simp only [hc, hj]
    · simp only [hp, hj]

/-- Shutting down the service that is on. -/
theorem refines_ended {w : World κ ν} {s : Simple} (h : Refines w s) (o : On) (ho : s.on = some o)
    (hk : o.kind = .py4j) :
    Refines { endGateway { w with caches := w.caches.clearAll } false with service := none } { s with on := none } := by
  obtain ⟨h1, h2⟩ := h.on o ho
  rcases h2 with ⟨hk', -⟩ | ⟨-, p, hj, hi, hp⟩
  · rw [hk] at hk'; cases hk'
  have hcur : currentGateway { w with caches := w.caches.clearAll } = some (o.object, ⟨.py4j, o.config, some p⟩, p) := by
    unfold currentGateway
    simp only [h1, hi]
  have hend : endGateway { w with caches := w.caches.clearAll } false =
      { w with
        caches := w.caches.clearAll
        insts := w.insts.set o.object ⟨.py4j, o.config, none⟩
        procs := w.procs.modify p fun q => { q with alive := false } } := by
    unfold endGateway
    rw [hcur]
    rfl
  rw [hend]
  refine ⟨?_, ?_, h.config, ?_, fun _ => rfl, fun o h => (by cases h), fun i x hx _ => ?_, fun r q hq ha => ?_⟩
  · rw [List.length_set]; exact h.made
  · rw [List.length_modify]; exact h.started
  · rw [← h.names]
    simp [Registry.clearAll]
  · rw [List.getElem?_set] at hx
    split at hx
    · split at hx
      · cases hx
        exact ⟨rfl, rfl⟩
      · cases hx
    · rename_i hne
      refine h.old i x hx fun o' ho' => ?_
      rw [ho] at ho'
      cases ho'
      exact hne
  · exfalso
    dsimp only at hq
    rw [List.getElem?_modify] at hq
    by_cases hpr : p = r
    · simp only [if_pos hpr] at hq
      cases hr : w.procs[r]? with
      | none => rw [hr] at hq; cases hq
      | some q' =>
        rw [hr] at hq
        cases hq
        cases ha
    · simp only [if_neg hpr] at hq
      cases hr : w.procs[r]? with
      | none => rw [hr] at hq; cases hq
      | some q' =>
        rw [hr] at hq
        cases hq
        obtain ⟨o', ho', hj'⟩ := h.alive r q' hr ha
        rw [ho] at ho'
        cases ho'
        rw [hj] at hj'
        cases hj'
        exact hpr rfl

/-- Shutting down an object. -/
theorem refines_shutdown {w : World κ ν} {s : Simple} (h : Refines w s) (i : Nat) :
    Refines (shutdown w i false).1 (if s.Serves i then { s with on := none } else s) ∧
    (shutdown w i false).2 = if s.made ≤ i then .error .nobody else .ok .done := by
  unfold shutdown
  cases hi : w.insts[i]? with
  | none =>
    have hlen : s.made ≤ i := by rw [← h.made]; exact List.getElem?_eq_none_iff.mp hi
    have hno : ¬ s.Serves i := by
      rintro ⟨o, ho, rfl, -⟩
      rcases (h.on o ho).2 with ⟨-, -, c, hc⟩ | ⟨-, p, -, hp, -⟩
      · rw [hi] at hc; cases hc
      · rw [hi] at hp; cases hp
    rw [if_neg hno, if_pos hlen]
    exact ⟨h, rfl⟩
  | some x =>
    have hlen : ¬ s.made ≤ i := by
      rw [← h.made]
      have := (List.getElem?_eq_some_iff.mp hi).1
      omega
    rw [if_neg hlen]
    by_cases hser : s.Serves i
    · rw [if_pos hser]
      obtain ⟨o, ho, rfl, hk⟩ := hser
      rcases (h.on o ho).2 with ⟨hk', -⟩ | ⟨-, p, hj, hp, -⟩
      · rw [hk] at hk'; cases hk'
      rw [hp] at hi
      cases hi
      dsimp only
      rw [if_neg (by simp)]
      exact ⟨refines_ended h o ho hk, rfl⟩
    · rw [if_neg hser]
      by_cases hcur : ∃ o, s.on = some o ∧ o.object = i
      · obtain ⟨o, ho, rfl⟩ := hcur
        rcases (h.on o ho).2 with ⟨hk', hj, c, hc⟩ | ⟨hk, -⟩
        · rw [hc] at hi
          cases hi
          dsimp only
          refine ⟨⟨h.made, h.started, h.config, ?_, h.off, h.on, h.old, h.alive⟩, rfl⟩
          rw [← h.names]
          simp [Registry.clearAll]
        · exact absurd ⟨o, ho, rfl, hk⟩ hser
      · obtain ⟨hk, hg⟩ := h.old i x hi fun o ho hoi => hcur ⟨o, ho, hoi⟩
        simp only [hk, hg, if_true]
        exact ⟨h, trivial⟩

theorem refines_step {answer : String → Jvm → κ → ν} {w : World κ ν} {s : Simple} (hw : Sound answer w)
    (h : Refines w s) (op : Op κ) (hc : Clean op) :
    Refines (step answer w op).1 (s.step answer op).1 ∧ (step answer w op).2 = (s.step answer op).2 := by
  cases op with
  | configure c =>
    simp only [step, configure, Simple.step]
    have key : Refines { w with config := some c } { s with config := some c } :=
      ⟨h.made, h.started, rfl, h.names, h.off, h.on, h.old, h.alive⟩
    cases ho : s.on with
    | none =>
      rw [h.off ho]
      rw [ho, h.off ho] at key
      exact ⟨key, rfl⟩
    | some o =>
      rw [(h.on o ho).1]
      exact ⟨h, rfl⟩
  | reset => exact ⟨⟨h.made, h.started, rfl, h.names, h.off, h.on, h.old, h.alive⟩, rfl⟩
  | init k launches =>
    simp only [step, init, Simple.step]
    cases ho : s.on with
    | some o =>
      rw [(h.on o ho).1]
      dsimp only
      have hx : ∃ x, w.insts[o.object]? = some x ∧ x.kind = o.kind := by
        rcases (h.on o ho).2 with ⟨hk, -, c, hc⟩ | ⟨hk, p, -, hp, -⟩
        · exact ⟨_, hc, hk.symm⟩
        · exact ⟨_, hp, hk.symm⟩
      obtain ⟨x, hx, hk⟩ := hx
      rw [hx]
      dsimp only
      rw [hk]
      by_cases hkk : o.kind = k
      · rw [if_pos hkk, if_pos hkk]
        exact ⟨h, rfl⟩
      · rw [if_neg hkk, if_neg hkk]
        exact ⟨h, rfl⟩
    | none =>
      rw [h.off ho]
      have hold : ∀ (n : Inst) (i : Nat) (x : Inst), (w.insts ++ [n])[i]? = some x → s.made ≠ i →
          x.kind = .py4j ∧ x.gateway = none := by
        intro n i x hx hne
        rw [List.getElem?_append] at hx
        split at hx
        · exact h.old i x hx fun o ho' => by rw [ho] at ho'; cases ho'
        · rename_i hlt
          rw [List.getElem?_singleton] at hx
          split at hx
          · rw [← h.made] at hne
            omega
          · cases hx
      cases k with
      | jpype =>
        dsimp only [startJpype]
        refine ⟨⟨by simp [h.made], h.started, h.config, h.names, fun hh => (by cases hh), fun o ho' => ?_,
          fun i x hx hne => hold _ i x hx (hne _ rfl), fun p q hq ha => ?_⟩, by rw [h.made]⟩
        · cases ho'
          dsimp only
          rw [h.made]
          exact ⟨rfl, .inl ⟨rfl, rfl, Config.default, by rw [← h.made]; simp⟩⟩
        · obtain ⟨o, ho', -⟩ := h.alive p q hq ha
          rw [ho] at ho'; cases ho'
      | py4j =>
        dsimp only [startPy4j]
        cases launches with
        | false => exact ⟨h, rfl⟩
        | true =>
          simp only [if_true]
          refine ⟨⟨by simp [h.made], by simp [h.started], h.config, h.names, fun hh => (by cases hh), fun o ho' => ?_,
            fun i x hx hne => hold _ i x hx (hne _ rfl), fun p q hq ha => ?_⟩, by rw [h.made]⟩
          · cases ho'
            dsimp only
            refine ⟨by rw [h.made], .inr ⟨rfl, s.started, rfl, ?_, ?_⟩⟩
            · rw [← h.made, ← h.started, ← h.config]; simp
            · rw [← h.started, ← h.config]; simp
          · refine ⟨_, rfl, ?_⟩
            dsimp only at hq ⊢
            rw [List.getElem?_append] at hq
            split at hq
            · obtain ⟨o, ho', -⟩ := h.alive p q hq ha
              rw [ho] at ho'; cases ho'
            · rw [List.getElem?_singleton] at hq
              split at hq
              · rw [← h.started]
                congr 1
                omega
              · cases hq
  | exit i fails =>
    have hf : fails = false := hc
    subst hf
    simp only [step, Java.exit, Simple.step]
    have hsd := refines_shutdown h i
    cases hi : w.insts[i]? with
    | none =>
      have hlen : s.made ≤ i := by rw [← h.made]; exact List.getElem?_eq_none_iff.mp hi
      rw [if_pos hlen]
      exact ⟨h, rfl⟩
    | some x =>
      have hlen : ¬ s.made ≤ i := by
        rw [← h.made]
        have := (List.getElem?_eq_some_iff.mp hi).1
        omega
      rw [if_neg hlen]
      dsimp only
      by_cases hcur : ∃ o, s.on = some o ∧ o.object = i
      · obtain ⟨o, ho, rfl⟩ := hcur
        simp only [ho]
        rcases (h.on o ho).2 with ⟨hk', hj, c, hc⟩ | ⟨hk, p, hj, hp, -⟩
        · rw [hc] at hi
          cases hi
          dsimp only
          rw [if_neg (by rw [hk']; simp)]
          exact ⟨h, rfl⟩
        · rw [hp] at hi
          cases hi
          dsimp only
          cases hse : o.config.shutdownOnExit with
          | false =>
            rw [if_neg (by simp), if_neg (by simp)]
            exact ⟨h, rfl⟩
          | true =>
            rw [if_pos rfl, if_pos (by simp [hk])]
            rw [if_pos ⟨o, ho, rfl, hk⟩, if_neg hlen] at hsd
            exact hsd
      · obtain ⟨hk, hg⟩ := h.old i x hi fun o ho hoi => hcur ⟨o, ho, hoi⟩
        have hser : ¬ s.Serves i := fun ⟨o, ho, hoi, _⟩ => hcur ⟨o, ho, hoi⟩
        rw [if_neg hser, if_neg hlen] at hsd
        have hspec : (match s.on with
            | some o =>
              if o.object = i ∧ o.kind = .py4j ∧ o.config.shutdownOnExit = true then ({ s with on := none }, .ok .done)
              else (s, .ok .done)
            | none => (s, .ok .done) : Simple × Except Err (Out ν)) = (s, .ok .done) := by
          cases ho : s.on with
          | none => rfl
          | some o =>
            dsimp only
            rw [if_neg fun hh => hcur ⟨o, ho, hh.1⟩]
        rw [hspec, hk]
        dsimp only
        cases x.config.shutdownOnExit with
        | false => exact ⟨h, rfl⟩
        | true =>
          rw [if_pos rfl]
          exact hsd
  | shutdown i fails =>
    have hf : fails = false := hc
    subst hf
    obtain ⟨h1, h2⟩ := refines_shutdown h i
    simp only [step, Simple.step]
    by_cases hlen : s.made ≤ i
    · rw [if_pos hlen]
      rw [if_pos hlen] at h2
      have hno : ¬ s.Serves i := by
        rintro ⟨o, ho, rfl, -⟩
        have : o.object < w.insts.length := by
          rcases (h.on o ho).2 with ⟨-, -, c, hc⟩ | ⟨-, p, -, hp, -⟩
          · exact (List.getElem?_eq_some_iff.mp hc).1
          · exact (List.getElem?_eq_some_iff.mp hp).1
        rw [h.made] at this
        omega
      rw [if_neg hno] at h1
      exact ⟨h1, h2⟩
    · rw [if_neg hlen]
      rw [if_neg hlen] at h2
      by_cases hser : s.Serves i
      · rw [if_pos hser] at h1 ⊢
        exact ⟨h1, h2⟩
      · rw [if_neg hser] at h1 ⊢
        exact ⟨h1, h2⟩
  | current =>
    simp only [step, instance?, Simple.step]
    refine ⟨h, ?_⟩
    cases ho : s.on with
    | none => rw [h.off ho]
    | some o => rw [(h.on o ho).1]
  | create name size =>
    simp only [step, Java.create, Registry.create, Simple.step]
    refine ⟨?_, trivial⟩
    cases hl : w.caches.lookup name with
    | some c =>
      have hin : name ∈ s.names := by
        rw [← h.names]
        exact List.mem_map.mpr ⟨_, mem_of_lookup _ _ _ hl, rfl⟩
      rw [if_pos hin]
      exact ⟨h.made, h.started, h.config, h.names, h.off, h.on, h.old, h.alive⟩
    | none =>
      have hnot := (lookup_none _ _).mp hl
      rw [if_neg (by rw [← h.names]; exact hnot)]
      refine ⟨h.made, h.started, h.config, ?_, h.off, h.on, h.old, h.alive⟩
      dsimp only
      rw [← h.names]
      generalize w.caches = l at hnot
      induction l with
      | nil => rfl
      | cons e l ih =>
        rw [List.map_cons, List.mem_cons, not_or] at hnot
        unfold dictSet
        rw [if_neg (fun hh => hnot.1 hh.symm), List.map_cons, List.map_cons, ih hnot.2, List.cons_append]
  | find name key =>
    obtain ⟨-, h2, r, hr, hnames⟩ := find_facts hw name key
    simp only [step, Simple.step]
    rw [h2, hr, refines_module h, h.names]
    refine ⟨⟨h.made, h.started, h.config, hnames.trans h.names, h.off, h.on, h.old, h.alive⟩, ?_⟩
    cases s.on <;> rfl

theorem refines_run {answer : String → Jvm → κ → ν} : ∀ (ops : List (Op κ)) (w : World κ ν) (s : Simple), Sound answer w →
    Refines w s → (∀ op ∈ ops, Clean op) →
    Refines (run answer w ops).1 (s.run answer ops).1 ∧ (run answer w ops).2 = (s.run answer ops).2
  | [], w, s, _, h, _ => ⟨h, rfl⟩
  | op :: ops, w, s, hw, h, hc => by
    obtain ⟨h1, h2⟩ := refines_step hw h op (hc op (by simp))
    obtain ⟨h3, h4⟩ := refines_run ops _ _ (sound_step hw op) h1 fun o ho => hc o (by simp [ho])
    refine ⟨h3, ?_⟩
    show _ :: _ = _ :: _
    rw [h2, h4]

/-! ### Theorems -/

/-- **C110.** As long as gateways shut down when told to, every call returns what the simple machine returns: there is at
most one service at a time, it stays the same until it is shut down, its kind and configuration cannot be changed
meanwhile, objects of earlier services do nothing, and neither caches nor restarts can be noticed in the answers. -/
theorem C110_calls (answer : String → Jvm → κ → ν) (ops : List (Op κ)) (hc : ∀ op ∈ ops, Clean op) :
    (run answer World.start ops).2 = (Simple.start.run answer ops).2 :=
  (refines_run ops _ _ (sound_start answer) refines_start hc).2

/-- **C110.** Then a Java process runs exactly if the service is on with one; it is the one of the service, and has the
memory of the configuration the service was made with. When the service is off, no process runs and the caches are
empty. -/
theorem C110_processes (answer : String → Jvm → κ → ν) (ops : List (Op κ)) (hc : ∀ op ∈ ops, Clean op) :
    (∀ p q, (run answer World.start ops).1.procs[p]? = some q → (q.alive = true ↔
      ∃ o, (Simple.start.run answer ops).1.on = some o ∧ o.jvm = .process p)) ∧
    (∀ o p, (Simple.start.run answer ops).1.on = some o → o.jvm = .process p →
      (run answer World.start ops).1.procs[p]? = some ⟨o.config.memory, true⟩) ∧
    ((Simple.start.run answer ops).1.on = none → ∀ e ∈ (run answer World.start ops).1.caches, e.2.entries = []) := by
  have hr := (refines_run ops _ _ (sound_start answer) refines_start hc).1
  have key : ∀ o p, (Simple.start.run answer ops).1.on = some o → o.jvm = .process p →
      (run answer World.start ops).1.procs[p]? = some ⟨o.config.memory, true⟩ := by
    intro o p ho hj
    rcases (hr.on o ho).2 with ⟨-, hj', -⟩ | ⟨-, p', hj', -, hp⟩
    · rw [hj] at hj'; cases hj'
    · rw [hj] at hj'; cases hj'; exact hp
  refine ⟨fun p q hq => ⟨hr.alive p q hq, ?_⟩, key, fun hoff => ?_⟩
  · rintro ⟨o, ho, hj⟩
    have := key o p ho hj
    rw [hq] at this
    cases this
    rfl
  · exact off_empty (sound_run answer ops _ (sound_start answer)) (hr.off hoff)

/-- **C110.** Whatever happens, also if gateways refuse to shut down, an answer is that of the virtual machine in use at
that time: never one of a machine that has been shut down, and never one without a machine. -/
theorem C110_answers (answer : String → Jvm → κ → ν) (ops : List (Op κ)) (name : String) (key : κ) (v : ν) :
    (step answer (run answer World.start ops).1 (.find name key)).2 = .ok (.value v) ↔
      name ∈ (run answer World.start ops).1.caches.map (·.1) ∧
      ∃ j, module? (run answer World.start ops).1 = .ok j ∧ v = answer name j key := by
  have h := sound_run answer ops _ (sound_start (κ := κ) answer)
  simp only [step]
  rw [(find_facts h name key).2.1]
  by_cases hn : name ∈ (run answer World.start ops).1.caches.map (·.1)
  · rw [if_pos hn]
    cases module? (run answer World.start ops).1 with
    | error e => simp [Except.map]
    | ok j =>
      simp only [Except.map, Except.ok.injEq, Out.value.injEq, hn, true_and, exists_eq_left']
      exact eq_comm
  · rw [if_neg hn]
    simp [hn]

/-- **C110.** Whatever happens, the machine in use runs. -/
theorem C110_runs (answer : String → Jvm → κ → ν) (ops : List (Op κ)) (p : Nat)
    (h : module? (run answer World.start ops).1 = .ok (.process p)) :
    ∃ q, (run answer World.start ops).1.procs[p]? = some q ∧ q.alive = true := by
  have hs := sound_run answer ops _ (sound_start (κ := κ) answer)
  generalize run answer World.start ops = r at *
  unfold module? at h
  cases hi : r.1.service with
  | none => rw [hi] at h; cases h
  | some i =>
    rw [hi] at h
    dsimp only at h
    obtain ⟨x, hx, hk⟩ := hs.service i hi
    rw [hx] at h
    obtain ⟨k, c, g⟩ := x
    rcases hk with hk | ⟨hk, p', q, hg, hq, ha⟩
    · dsimp only at hk
      subst hk
      cases h
    · dsimp only at hk hg
      subst hk hg
      cases h
      exact ⟨q, hq, ha⟩

/-- **C110.** Whatever happens, leaving the service through an object that holds a gateway leaves no service and empty
caches, even if the gateway refuses to shut down: another service can be made. -/
theorem C110_leaving (answer : String → Jvm → κ → ν) (ops : List (Op κ)) (h p : Nat) (c : Config) (fails : Bool)
    (hx : (run answer World.start ops).1.insts[h]? = some ⟨.py4j, c, some p⟩) (hc : c.shutdownOnExit = true) :
    (step answer (run answer World.start ops).1 (.exit h fails)).1.service = none ∧
    ∀ e ∈ (step answer (run answer World.start ops).1 (.exit h fails)).1.caches, e.2.entries = [] := by
  have hs := sound_run answer ops _ (sound_start (κ := κ) answer)
  have hoff : (step answer (run answer World.start ops).1 (.exit h fails)).1.service = none := by
    simp only [step, Java.exit, hx, hc, if_true, shutdown]
    rw [if_neg (by simp)]
  exact ⟨hoff, off_empty (sound_step hs _) hoff⟩

/-- **C110.** A configuration is accepted exactly if its memory is digits and one of the letters for a unit — or
(finding) that and a newline, which a dollar in a pattern lets pass. -/
theorem C110_memory (digit : Char → Bool) (memory : List Char) (b : Bool) (c : Config) :
    Config.make digit memory b = .ok c ↔ c = ⟨memory, b⟩ ∧ ∃ ds u, ds ≠ [] ∧ (∀ d ∈ ds, digit d = true) ∧
      u ∈ ['k', 'K', 'm', 'M', 'g', 'G', 't', 'T'] ∧ (memory = ds ++ [u] ∨ memory = ds ++ [u, '\n']) := by
  have ham : ∀ s : List Char, amount digit s = true ↔ ∃ ds u, ds ≠ [] ∧ (∀ d ∈ ds, digit d = true) ∧
      u ∈ ['k', 'K', 'm', 'M', 'g', 'G', 't', 'T'] ∧ s = ds ++ [u] := by
    intro s
    unfold amount
    have hl : "kKmMgGtT".toList = ['k', 'K', 'm', 'M', 'g', 'G', 't', 'T'] := by decide +kernel
    rw [hl]
    generalize ['k', 'K', 'm', 'M', 'g', 'G', 't', 'T'] = letters
    rcases List.eq_nil_or_concat s with rfl | ⟨ds, u, rfl⟩
    · simp
    · simp only [List.concat_eq_append, List.reverse_append, List.reverse_cons, List.reverse_nil, List.nil_append,
        List.singleton_append, Bool.and_eq_true, decide_eq_true_eq, List.all_eq_true, List.mem_reverse, ne_eq,
        List.reverse_eq_nil_iff]
      constructor
      · rintro ⟨⟨h1, h2⟩, h3⟩
        exact ⟨ds, u, h2, h3, h1, rfl⟩
      · rintro ⟨ds', u', h1, h2, h3, h4⟩
        obtain ⟨rfl, h5⟩ := List.append_inj' h4 rfl
        cases h5
        exact ⟨⟨h3, h1⟩, h2⟩
  have hm : matches? digit memory = true ↔ ∃ ds u, ds ≠ [] ∧ (∀ d ∈ ds, digit d = true) ∧
      u ∈ ['k', 'K', 'm', 'M', 'g', 'G', 't', 'T'] ∧ (memory = ds ++ [u] ∨ memory = ds ++ [u, '\n']) := by
    unfold matches?
    rw [Bool.or_eq_true, Bool.and_eq_true, decide_eq_true_eq, ham, ham]
    constructor
    · rintro (⟨ds, u, h1, h2, h3, h4⟩ | ⟨h0, ds, u, h1, h2, h3, h4⟩)
      · exact ⟨ds, u, h1, h2, h3, .inl h4⟩
      · refine ⟨ds, u, h1, h2, h3, .inr ?_⟩
        obtain ⟨l, hl⟩ := List.getLast?_eq_some_iff.mp h0
        rw [hl, List.dropLast_concat] at h4
        rw [hl, h4]
        simp
    · rintro ⟨ds, u, h1, h2, h3, h4 | h4⟩
      · exact .inl ⟨ds, u, h1, h2, h3, h4⟩
      · right
        have hl : memory = (ds ++ [u]) ++ ['\n'] := by rw [h4]; simp
        refine ⟨by rw [hl]; simp, ds, u, h1, h2, h3, by rw [hl, List.dropLast_concat]⟩
  unfold Config.make
  by_cases h : matches? digit memory = true
  · rw [if_pos h]
    simp only [Except.ok.injEq, hm.mp h, and_true]
    exact eq_comm
  · rw [if_neg h]
    constructor
    · intro hh; cases hh
    · rintro ⟨-, hh⟩
      exact absurd (hm.mpr hh) h

/-! ### Findings and examples -/

/-- The answers of the examples: which machine was asked what. -/
def told : String → Jvm → Nat → Jvm × Nat := fun _ j k => (j, k)

/-- A cached answer is given again; after a restart it is computed anew. The memory configured is used. -/
example : (run told World.start [.configure ⟨"4G".toList, true⟩, .create "flash" 2, .init .py4j true, .find "flash" 7,
      .find "flash" 7, .init .jpype true, .configure Config.default, .exit 0 false, .find "flash" 7, .init .py4j true,
      .find "flash" 7]).2 =
    [.ok .done, .ok .done, .ok (.object 0), .ok (.value (.process 0, 7)), .ok (.value (.process 0, 7)),
      .error .programming, .error .runtime, .ok .done, .error .programming, .ok (.object 1),
      .ok (.value (.process 1, 7))] := by
  rw [C110_calls told _ (by simp [Clean])]
  rfl

/-- FINDING. A service inside a service is the same one, and leaving the inner one shuts it down: what follows in the
outer one has no service. -/
theorem C110_nested (answer : String → Jvm → κ → ν) (name : String) (n : Nat) (key : κ) :
    (run answer World.start [.create name n, .init .py4j true, .init .py4j true, .exit 0 false, .find name key]).2 =
      [.ok .done, .ok (.object 0), .ok (.object 0), .ok .done, .error .programming] := by
  rw [C110_calls answer _ (by simp [Clean])]
  simp [Simple.run, Simple.step, Simple.start, Config.default]

/-- FINDING. If the gateway of a service refuses to shut down, its process keeps running, and its object, shut down
again, shuts down the process of the service that has been made meanwhile. -/
theorem C110_stale (answer : String → Jvm → κ → ν) :
    ((run answer World.start [.init .py4j true, .exit 0 true, .init .py4j true]).1.procs.map (·.alive) = [true, true]) ∧
    ((run answer World.start [.init .py4j true, .exit 0 true, .init .py4j true, .shutdown 0 false]).1.procs.map (·.alive)
      = [true, false]) ∧
    (run answer World.start [.init .py4j true, .exit 0 true, .init .py4j true, .shutdown 0 false]).1.service = none :=
  ⟨rfl, rfl, rfl⟩

/-- FINDING. The kind of service can change during the life of a Python process, from the one with a process to the one
without. -/
theorem C110_change (answer : String → Jvm → κ → ν) :
    (run answer World.start [.init .py4j true, .exit 0 false, .init .jpype true]).2 =
      [.ok (.object 0), .ok .done, .ok (.object 1)] := rfl

end Verif.C110
