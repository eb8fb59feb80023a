import Verif.Props.C78
import Verif.Props.C37

/-!
C79: distributing a stream to trains: the total is kept, trains with an overflow are cut back to their capacity, and the
first distribution that all trains can handle is used.
-/

namespace Verif.C79

open Verif.Time Verif.Process Verif.Section Verif.Solver Verif.Feasibility Verif.Distribution
open Verif.C40 (Lawful)
open Verif.C73 (Closed)
open Verif.C78 (Handles Refuses Valid atRate)

variable {κ : Type} [DecidableEq κ] {α : Type} [DecidableEq α]

/-! ## Specification -/

/-- `s` is the stream of the given standard rate with the fluid and the conditions of `inlet`. -/
structure Like (svc : Service) (inlet : Stream) (rate : ℚ) (s : Stream) : Prop where
  model : s.model = inlet.model
  pressure : s.props.pressure = inlet.props.pressure
  temperature : s.props.temperature = inlet.props.temperature
  rate : s.stdRate = rate
  valid : Valid s
  density : s.props.stdDensity = svc.stdDensity inlet.model

/-- There is no flow, or the train handles it. -/
def Copes (env : Env κ) (it : Item κ) (s : Stream) : Prop := s.stdRate = 0 ∨ Handles env it s

/-! ## Lemmas -/

omit [DecidableEq κ] [DecidableEq α] in
theorem stream_like {env : Env κ} (hlaw : Lawful env.svc) {c : Shared α κ} {r : ℚ} {s : Stream}
    (h : c.stream env.svc r = .ok s) : Like env.svc c.inlet r s := by
  obtain ⟨h1, h2, h3, h4⟩ := C40.fromStdRate_ok env.svc _ _ _ _ _ h
  have hd := hlaw.density _ _ _ _ h1
  have hp := hlaw.positive c.inlet.model
  refine ⟨h2, hlaw.pressure _ _ _ _ h1, hlaw.temperature _ _ _ _ h1, ?_, ⟨by rw [hd]; exact hp, h4⟩, hd⟩
  unfold Stream.stdRate
  rw [h3, hd]
  have := hp.ne'
  field_simp

/-- The excess of a fresh train for the stream of a rate, 0 if it raises. -/
def pureExcess (env : Env κ) (c : Shared α κ) (it : Item κ) (r : ℚ) : ℚ :=
  match c.stream env.svc r with
  | .error _ => 0
  | .ok s => match (it.excess env s fun _ => 0).1 with
    | .error _ => 0
    | .ok x => x

/-- The distribution of rates that belongs to a distribution of streams. -/
def onRates (env : Env κ) (c : Shared α κ) : Common α :=
  ⟨c.items.map fun p => (p.1, pureExcess env c p.2), c.rates, c.overflows, c.graph⟩

theorem lookup_map {β γ : Type} (f : β → γ) (x : α) : ∀ l : List (α × β),
    (l.map fun p => (p.1, f p.2)).lookup x = (l.lookup x).map f := by
  intro l
  induction l with
  | nil => rfl
  | cons p l ih =>
    obtain ⟨a, b⟩ := p
    simp only [List.map_cons, List.lookup_cons]
    cases x == a with
    | true => rfl
    | false => exact ih

theorem mem_lookup {β : Type} {l : List (α × β)} {x : α} {b : β} (h : l.lookup x = some b) : (x, b) ∈ l := by
  induction l with
  | nil => cases h
  | cons p l ih =>
    obtain ⟨a, b'⟩ := p
    rw [List.lookup_cons] at h
    cases hx : x == a with
    | true =>
      rw [hx] at h
      cases h
      rw [beq_iff_eq] at hx
      subst hx
      exact List.mem_cons_self
    | false =>
      rw [hx] at h
      exact List.mem_cons_of_mem _ (ih h)

theorem step_refines {env : Env κ} (hlaw : Lawful env.svc) {c : Shared α κ} (hc : ∀ p ∈ c.items, Closed p.2.sec)
    {acc acc' : Adjusted α} {p : α × ℚ} {st st' : Settings κ} (h : c.adjustStep env acc p st = (.ok acc', st')) :
    Distribution.adjustStep (onRates env c) acc p = .ok acc' := by
  unfold Shared.adjustStep at h
  unfold Distribution.adjustStep
  dsimp only [onRates] at h ⊢
  cases ho : overflowOut c.overflows p.1 with
  | none => rw [ho] at h; cases h; rfl
  | some o =>
    rw [ho] at h
    dsimp only at h ⊢
    rw [lookup_map]
    cases hl : c.items.lookup p.1 with
    | none => rw [hl] at h; cases h
    | some it =>
      rw [hl] at h
      dsimp only at h
      dsimp only [Option.map_some]
      cases hs : c.stream env.svc (p.2 + ((acc.1.lookup p.1).getD []).sum) with
      | error e => rw [hs] at h; cases h
      | ok s =>
        rw [hs] at h
        dsimp only at h
        have hv := (stream_like hlaw hs).valid
        have hh := C78.C78_history (hc _ (mem_lookup hl)) env hv (fun _ => 0) st
        unfold pureExcess
        rw [hs]
        dsimp only
        rw [hh]
        generalize it.excess env s st = a at h
        obtain ⟨a1, a2⟩ := a
        cases a1 with
        | error e => cases h
        | ok x => cases h; rfl

theorem loop_refines {env : Env κ} (hlaw : Lawful env.svc) {c : Shared α κ} (hc : ∀ p ∈ c.items, Closed p.2.sec) :
    ∀ (ps : List (α × ℚ)) (acc acc' : Adjusted α) (st st' : Settings κ), c.adjustLoop env ps acc st = (.ok acc', st') →
      ps.foldlM (Distribution.adjustStep (onRates env c)) acc = .ok acc' := by
  intro ps
  induction ps with
  | nil => intro acc acc' st st' h; cases h; rfl
  | cons p ps ih =>
    intro acc acc' st st' h
    rw [Shared.adjustLoop] at h
    cases hs : c.adjustStep env acc p st with
    | mk a1 a2 =>
      rw [hs] at h
      cases a1 with
      | error e => cases h
      | ok acc1 =>
        rw [List.foldlM_cons, step_refines hlaw hc hs]
        exact ih _ _ _ _ h

theorem adjust_refines {env : Env κ} (hlaw : Lawful env.svc) {c : Shared α κ} (hc : ∀ p ∈ c.items, Closed p.2.sec)
    {rates : List (α × ℚ)} {st st' : Settings κ} (h : c.adjust env st = (.ok rates, st')) :
    (onRates env c).adjust = .ok rates := by
  unfold Shared.adjust at h
  unfold Common.adjust
  have hg : (onRates env c).graph = c.graph := rfl
  have hr : (onRates env c).rates = c.rates := rfl
  rw [hg, hr]
  cases ht : c.graph.topologicalSort with
  | error e => rw [ht] at h; cases h
  | ok sorted =>
    rw [ht] at h
    dsimp only at h
    cases hl : c.adjustLoop env (sorted.zip c.rates) ([], []) st with
    | mk a1 a2 =>
      rw [hl] at h
      cases a1 with
      | error e => cases h
      | ok acc =>
        dsimp only at h
        have := loop_refines hlaw hc _ _ _ _ _ hl
        simp only [Bind.bind, Except.bind, pure, Except.pure]
        rw [this]
        dsimp only
        split at h
        · rename_i he
          cases h
          rw [if_pos he]
        · cases h

theorem bind_ok {ε β γ : Type} {x : Except ε β} {f : β → Except ε γ} {r : γ} (h : (x >>= f) = .ok r) :
    ∃ a, x = .ok a ∧ f a = .ok r := by
  cases x with
  | error e => cases h
  | ok a => exact ⟨a, rfl, h⟩

theorem mapM_ok {β γ ε : Type} (f : β → Except ε γ) : ∀ (l : List β) (r : List γ), l.mapM f = .ok r →
    List.Forall₂ (fun a b => f a = .ok b) l r := by
  intro l
  induction l with
  | nil => intro r h; cases h; exact .nil
  | cons a l ih =>
    intro r h
    rw [List.mapM_cons] at h
    obtain ⟨b, h1, h2⟩ := bind_ok h
    obtain ⟨bs, h3, h4⟩ := bind_ok h2
    cases h4
    exact .cons h1 (ih _ h3)

theorem mapM_of {β γ ε : Type} (f : β → Except ε γ) {l : List β} {r : List γ}
    (h : List.Forall₂ (fun a b => f a = .ok b) l r) : l.mapM f = .ok r := by
  induction h with
  | nil => rfl
  | cons h1 _ ih => rw [List.mapM_cons, h1]; simp only [Bind.bind, Except.bind]; rw [ih]; rfl

/-- The streams are those of the adjusted rates. -/
theorem streams_lookup {env : Env κ} {c : Shared α κ} {streams : List Stream} {st st' : Settings κ}
    (h : c.getStreams env st = (.ok streams, st')) :
    ∃ rs st2, c.adjust env st = (.ok rs, st2) ∧
      List.Forall₂ (fun item s => ∃ r, rs.lookup item.1 = some r ∧ c.stream env.svc r = .ok s) c.items streams := by
  unfold Shared.getStreams at h
  cases ha : c.adjust env st with
  | mk a1 a2 =>
    rw [ha] at h
    cases a1 with
    | error e => cases h
    | ok rs =>
      dsimp only at h
      refine ⟨rs, a2, rfl, ?_⟩
      simp only [Prod.mk.injEq] at h
      obtain ⟨m, h1, h2⟩ := bind_ok h.1
      replace h1 := mapM_ok _ _ _ h1
      replace h2 := mapM_ok _ _ _ h2
      have hlook : ∀ x s, m.lookup x = some s → ∃ r, rs.lookup x = some r ∧ c.stream env.svc r = .ok s := by
        clear h2 ha h
        induction h1 with
        | nil => intro x s hx; cases hx
        | @cons p q rs m hpq _ ih =>
          intro x s hx
          obtain ⟨p1, p2⟩ := p
          dsimp only at hpq
          cases hst : c.stream env.svc p2 with
          | error e => rw [hst] at hpq; cases hpq
          | ok t =>
            rw [hst] at hpq
            cases hpq
            rw [List.lookup_cons] at hx ⊢
            cases hxa : x == p1 with
            | true => rw [hxa] at hx; cases hx; exact ⟨p2, rfl, hst⟩
            | false => rw [hxa] at hx; exact ih x s hx
      refine h2.imp fun it s hi => ?_
      cases hm : m.lookup it.1 with
      | none => rw [hm] at hi; cases hi
      | some t =>
        rw [hm] at hi
        cases hi
        exact hlook _ _ hm

/-- The streams are those of the distribution of rates. -/
theorem streams_refine {env : Env κ} (hlaw : Lawful env.svc) {c : Shared α κ} (hc : ∀ p ∈ c.items, Closed p.2.sec)
    {streams : List Stream} {st st' : Settings κ} (h : c.getStreams env st = (.ok streams, st')) :
    ∃ rates, (onRates env c).getStreams = .ok rates ∧
      List.Forall₂ (fun r s => c.stream env.svc r = .ok s) rates streams := by
  obtain ⟨rs, st2, ha, h2⟩ := streams_lookup h
  have hadj := adjust_refines hlaw hc ha
  have key : ∃ rates, List.Forall₂ (fun item r => rs.lookup item.1 = some r) c.items rates ∧
      List.Forall₂ (fun r s => c.stream env.svc r = .ok s) rates streams := by
    clear h ha hadj hc
    generalize c.items = its at h2
    induction h2 with
    | nil => exact ⟨[], .nil, .nil⟩
    | @cons it s its ss hi _ ih =>
      obtain ⟨rates, k1, k2⟩ := ih
      obtain ⟨r, q1, q2⟩ := hi
      exact ⟨r :: rates, .cons q1 k1, .cons q2 k2⟩
  obtain ⟨rates, k1, k2⟩ := key
  refine ⟨rates, ?_, k2⟩
  unfold Common.getStreams
  rw [hadj]
  simp only [Bind.bind, Except.bind]
  have hit : (onRates env c).items = c.items.map fun p => (p.1, pureExcess env c p.2) := rfl
  rw [hit]
  apply mapM_of
  rw [List.forall₂_map_left_iff]
  exact k1.imp fun p r hr => by dsimp only; rw [hr]

/-! ### What a train with an overflow is left with -/

/-- `r` is what a train is left with: the stream that reaches it less its excess. -/
def CutTo (env : Env κ) (c : Shared α κ) (it : Item κ) (r : ℚ) : Prop :=
  ∃ cur s x, c.stream env.svc cur = .ok s ∧ (it.excess env s fun _ => 0).1 = .ok x ∧ r = cur - x

theorem step_cut {env : Env κ} (hlaw : Lawful env.svc) {c : Shared α κ} (hc : ∀ p ∈ c.items, Closed p.2.sec)
    {acc acc' : Adjusted α} {p : α × ℚ} {st st' : Settings κ} (h : c.adjustStep env acc p st = (.ok acc', st')) :
    (∀ k, k ≠ p.1 → acc'.2.lookup k = acc.2.lookup k) ∧
    ((overflowOut c.overflows p.1).isSome → ∀ it, c.items.lookup p.1 = some it →
      ∃ r, acc'.2.lookup p.1 = some r ∧ CutTo env c it r) := by
  unfold Shared.adjustStep at h
  dsimp only at h
  cases ho : overflowOut c.overflows p.1 with
  | none =>
    rw [ho] at h
    cases h
    refine ⟨fun k hk => ?_, fun h => by cases h⟩
    dsimp only
    rw [GraphLemmas.lookup_dictSet, if_neg hk]
  | some o =>
    rw [ho] at h
    dsimp only at h
    cases hl : c.items.lookup p.1 with
    | none => rw [hl] at h; cases h
    | some it =>
      rw [hl] at h
      dsimp only at h
      cases hs : c.stream env.svc (p.2 + ((acc.1.lookup p.1).getD []).sum) with
      | error e => rw [hs] at h; cases h
      | ok s =>
        rw [hs] at h
        dsimp only at h
        have hv := (stream_like hlaw hs).valid
        have hh := C78.C78_history (hc _ (mem_lookup hl)) env hv (fun _ => 0) st
        generalize it.excess env s st = a at h hh
        obtain ⟨a1, a2⟩ := a
        cases a1 with
        | error e => cases h
        | ok x =>
          cases h
          refine ⟨fun k hk => ?_, fun _ it' hit => ?_⟩
          · dsimp only
            rw [GraphLemmas.lookup_dictSet, if_neg hk]
          · cases hit
            refine ⟨_, ?_, _, s, x, hs, hh, rfl⟩
            dsimp only
            rw [GraphLemmas.lookup_dictSet, if_pos rfl]

theorem loop_cut {env : Env κ} (hlaw : Lawful env.svc) {c : Shared α κ} (hc : ∀ p ∈ c.items, Closed p.2.sec) :
    ∀ (ps : List (α × ℚ)), (ps.map (·.1)).Nodup → ∀ (acc acc' : Adjusted α) (st st' : Settings κ),
      c.adjustLoop env ps acc st = (.ok acc', st') →
      (∀ k, k ∉ ps.map (·.1) → acc'.2.lookup k = acc.2.lookup k) ∧
      ∀ k ∈ ps.map (·.1), (overflowOut c.overflows k).isSome → ∀ it, c.items.lookup k = some it →
        ∃ r, acc'.2.lookup k = some r ∧ CutTo env c it r := by
  intro ps
  induction ps with
  | nil => intro _ acc acc' st st' h; cases h; exact ⟨fun _ _ => rfl, by simp⟩
  | cons p ps ih =>
    intro hn acc acc' st st' h
    rw [List.map_cons, List.nodup_cons] at hn
    rw [Shared.adjustLoop] at h
    cases hs : c.adjustStep env acc p st with
    | mk a1 a2 =>
      rw [hs] at h
      cases a1 with
      | error e => cases h
      | ok acc1 =>
        obtain ⟨i1, i2⟩ := ih hn.2 _ _ _ _ h
        obtain ⟨s1, s2⟩ := step_cut hlaw hc hs
        constructor
        · intro k hk
          rw [List.map_cons, List.mem_cons, not_or] at hk
          rw [i1 k hk.2, s1 k hk.1]
        · intro k hk hov it hit
          rw [List.map_cons, List.mem_cons] at hk
          rcases hk with rfl | hk
          · obtain ⟨r, r1, r2⟩ := s2 hov it hit
            exact ⟨r, by rw [i1 _ hn.1]; exact r1, r2⟩
          · exact i2 k hk hov it hit

omit [DecidableEq α] in
theorem map_fst_zip {β : Type} : ∀ (l : List α) (r : List β), l.length = r.length → (l.zip r).map (·.1) = l := by
  intro l
  induction l with
  | nil => intro r _; rfl
  | cons a l ih =>
    intro r h
    cases r with
    | nil => simp at h
    | cons b r => simp at h ⊢; exact ih r h

omit [DecidableEq κ] [DecidableEq α] in
/-- The streams of two rates of one distribution differ in the rate only. -/
theorem stream_at {svc : Service} (hlaw : Lawful svc) {c : Shared α κ} {r r' : ℚ} {s s' : Stream}
    (h : c.stream svc r = .ok s) (h' : c.stream svc r' = .ok s') : s' = atRate s r' := by
  obtain ⟨h1, h2, h3, h4⟩ := C40.fromStdRate_ok svc _ _ _ _ _ h
  obtain ⟨k1, k2, k3, k4⟩ := C40.fromStdRate_ok svc _ _ _ _ _ h'
  have hd := hlaw.density _ _ _ _ h1
  rw [h1, Except.ok.injEq] at k1
  obtain ⟨m, p, x⟩ := s
  obtain ⟨m', p', x'⟩ := s'
  dsimp only at *
  subst h2 k2 k1
  unfold atRate
  rw [k3, hd]

omit [DecidableEq α] in
/-- What the train is left with, in terms of what it handles. -/
theorem cut_meaning {env : Env κ} (hlaw : Lawful env.svc) {c : Shared α κ} {it : Item κ} (hc : Closed it.sec)
    (hm : 0 < it.searchMax) {r : ℚ} {s : Stream} (hcut : CutTo env c it r) (hs : c.stream env.svc r = .ok s) :
    Copes env it s ∨ ∃ full l, 0 ≤ l ∧ l ≤ r ∧ r < full ∧ C27.Close it.searchTol it.searchMax full l r ∧
      (l = 0 ∨ Handles env it (atRate s l)) ∧ Refuses env it s ∧ Refuses env it (atRate s full) := by
  obtain ⟨cur, t, x, h1, h2, rfl⟩ := hcut
  have hl := stream_like hlaw h1
  have hst := stream_at hlaw h1 hs
  have hts : ∀ y, atRate t y = atRate s y := by
    intro y; rw [hst]; rfl
  cases he : it.excess env t fun _ => 0 with
  | mk a1 a2 =>
    rw [he] at h2
    dsimp only at h2
    subst h2
    rcases C78.excess_parts hc env hl.valid he with ⟨g1, rfl⟩ | ⟨g1, g2, rfl⟩ | ⟨g1, g2, g3⟩
    · left; left
      have : 0 ≤ t.stdRate := by
        have := hl.valid.1; have := hl.valid.2
        unfold Stream.stdRate; positivity
      rw [(stream_like hlaw hs).rate, sub_zero, ← hl.rate]
      exact le_antisymm g1 this
    · left; right
      rw [sub_zero, h1, Except.ok.injEq] at hs
      rw [← hs]; exact g2
    · rcases g3 with ⟨g3, -⟩ | ⟨l, hh, k1, k2, k3, k4, k5, k6, k7, k8, k9⟩
      · omega
      · rw [hl.rate] at k4 k7 k9
        rcases k7 with ⟨k7, k10⟩ | k7
        · left; right
          rw [hst, k7]; exact k10
        · right
          refine ⟨cur, l, k1, by rw [k7]; exact k2, by linarith, by rw [k7]; exact k4, ?_, ?_, ?_⟩
          · rw [← hts]; exact k5
          · rw [hst, k7]; exact k6
          · rw [← hts, ← hl.rate, C78.atRate_self t hl.valid.1]; exact g2

/-! ## Theorems -/

/-- **C79.** One stream for each train, each with the fluid, pressure and temperature of the inlet; their rates are not
negative and add up to the shares of the inlet rate. -/
theorem C79_streams {env : Env κ} (hlaw : Lawful env.svc) {inlet : Stream} {items : List (α × Item κ)}
    {fractions : List ℚ} {overflows : List (Overflow α)} {c : Shared α κ}
    (hnew : Shared.new inlet items fractions overflows = .ok c) (hc : ∀ p ∈ items, Closed p.2.sec)
    (hids : (items.map (·.1)).Nodup) (hlen : fractions.length = items.length)
    (hknown : ∀ o ∈ overflows, o.fromId ∈ items.map (·.1) ∧ o.toId ∈ items.map (·.1))
    {streams : List Stream} {st st' : Settings κ} (h : c.getStreams env st = (.ok streams, st')) :
    streams.length = items.length ∧ (∀ s ∈ streams, ∃ r, 0 ≤ r ∧ Like env.svc inlet r s) ∧
      (streams.map (·.stdRate)).sum = inlet.stdRate * fractions.sum := by
  unfold Shared.new at hnew
  dsimp only at hnew
  split at hnew
  · rename_i hac
    cases hnew
    obtain ⟨rates, h1, h2⟩ := streams_refine hlaw (c := ⟨inlet, items, _, overflows, _⟩) hc h
    generalize hcdef : (⟨inlet, items, fractions.map (inlet.stdRate * ·), overflows,
      overflowGraph (items.map (·.1)) overflows⟩ : Shared α κ) = c at *
    have hinl : c.inlet = inlet := by rw [← hcdef]
    have hpn : Common.new inlet.stdRate (items.map fun p => (p.1, pureExcess env c p.2)) fractions overflows =
        .ok (onRates env c) := by
      unfold Common.new
      have hm : (items.map fun p => (p.1, pureExcess env c p.2)).map (·.1) = items.map (·.1) := by simp
      rw [hm]
      dsimp only
      rw [if_pos hac]
      unfold onRates
      rw [← hcdef]
    have hm : (items.map fun p => (p.1, pureExcess env c p.2)).map (·.1) = items.map (·.1) := by simp
    obtain ⟨rs, k1, k2, k3⟩ := C37.C37_conserved inlet.stdRate _ fractions overflows _ hpn (by rw [hm]; exact hids)
      (by simp [hlen]) (by rw [hm]; exact hknown)
    rw [h1, Except.ok.injEq] at k1
    subst k1
    have hrates : streams.map (·.stdRate) = rates := by
      clear h1 k2 k3 h
      induction h2 with
      | nil => rfl
      | cons ha _ ih => rw [List.map_cons, (stream_like hlaw ha).rate, ih]
    refine ⟨?_, ?_, by rw [hrates]; exact k3⟩
    · rw [← h2.length_eq, k2]; simp
    · intro s hs
      clear h1 k2 k3 h hrates
      induction h2 with
      | nil => cases hs
      | @cons r s' _ _ ha _ ih =>
        rw [List.mem_cons] at hs
        rcases hs with rfl | hs
        · have hl := stream_like hlaw ha
          rw [hinl] at hl
          refine ⟨r, ?_, hl⟩
          rw [← hl.rate]
          have := hl.valid.1; have := hl.valid.2
          unfold Stream.stdRate; positivity
        · exact ih hs
  · cases hnew

theorem overflowOut_some {overflows : List (Overflow α)} {x : α} (h : ∃ o ∈ overflows, o.fromId = x) :
    (overflowOut overflows x).isSome := by
  obtain ⟨o, h1, h2⟩ := h
  unfold overflowOut
  rw [List.find?_isSome]
  exact ⟨o, h1, by simpa using h2⟩

theorem lookup_of_nodup {β : Type} : ∀ {l : List (α × β)}, (l.map (·.1)).Nodup → ∀ {p : α × β}, p ∈ l →
    l.lookup p.1 = some p.2 := by
  intro l
  induction l with
  | nil => intro _ p hp; cases hp
  | cons q l ih =>
    intro hn p hp
    rw [List.map_cons, List.nodup_cons] at hn
    rw [List.mem_cons] at hp
    obtain ⟨q1, q2⟩ := q
    rw [List.lookup_cons]
    rcases hp with rfl | hp
    · simp
    · have hne : p.1 ≠ q1 := fun e => hn.1 (by
        have := List.mem_map_of_mem (f := (·.1)) hp
        rwa [e] at this)
      have : (p.1 == q1) = false := by simpa using hne
      rw [this]
      exact ih hn.2 hp

/-- **C79.** A train with a declared overflow gets a stream it handles (or no flow), unless its stream is the upper end
of a bracket around its capacity, as narrow as the search promises. -/
theorem C79_cut {env : Env κ} (hlaw : Lawful env.svc) {inlet : Stream} {items : List (α × Item κ)}
    {fractions : List ℚ} {overflows : List (Overflow α)} {c : Shared α κ}
    (hnew : Shared.new inlet items fractions overflows = .ok c) (hc : ∀ p ∈ items, Closed p.2.sec)
    (hids : (items.map (·.1)).Nodup)
    {streams : List Stream} {st st' : Settings κ} (h : c.getStreams env st = (.ok streams, st'))
    (p : (α × Item κ) × Stream) (hp : p ∈ items.zip streams) (hov : ∃ o ∈ overflows, o.fromId = p.1.1)
    (hm : 0 < p.1.2.searchMax) :
    Copes env p.1.2 p.2 ∨ ∃ full l, 0 ≤ l ∧ l ≤ p.2.stdRate ∧ p.2.stdRate < full ∧
      C27.Close p.1.2.searchTol p.1.2.searchMax full l p.2.stdRate ∧ (l = 0 ∨ Handles env p.1.2 (atRate p.2 l)) ∧
      Refuses env p.1.2 p.2 ∧ Refuses env p.1.2 (atRate p.2 full) := by
  unfold Shared.new at hnew
  dsimp only at hnew
  split at hnew
  · rename_i hac
    cases hnew
    obtain ⟨rs, st2, ha, h2⟩ := streams_lookup h
    generalize hcdef : (⟨inlet, items, fractions.map (inlet.stdRate * ·), overflows,
      overflowGraph (items.map (·.1)) overflows⟩ : Shared α κ) = c at *
    have hci : c.items = items := by rw [← hcdef]
    have hco : c.overflows = overflows := by rw [← hcdef]
    have hcg : c.graph = overflowGraph (items.map (·.1)) overflows := by rw [← hcdef]
    rw [hci] at h2
    have hpit : p.1 ∈ items := (List.of_mem_zip (show (p.1, p.2) ∈ items.zip streams from hp)).1
    obtain ⟨r, hr, hs⟩ : ∃ r, rs.lookup p.1.1 = some r ∧ c.stream env.svc r = .ok p.2 :=
      (List.forall₂_iff_zip.1 h2).2 hp
    have hcut : CutTo env c p.1.2 r := by
      unfold Shared.adjust at ha
      rw [hcg] at ha
      rcases C37.sorted_facts (items.map (·.1)) overflows with ⟨out, t1, t2, t3, -⟩ | ⟨t1, -⟩
      · rw [t1] at ha
        dsimp only at ha
        cases hl : c.adjustLoop env (out.zip c.rates) ([], []) st with
        | mk a1 a2 =>
          rw [hl] at ha
          cases a1 with
          | error e => cases ha
          | ok acc =>
            dsimp only at ha
            split at ha
            · rename_i hlen
              cases ha
              have hz := map_fst_zip out c.rates hlen
              obtain ⟨-, q⟩ := loop_cut hlaw (by rw [hci]; exact hc) _ (by rw [hz]; exact t2) _ _ _ _ hl
              obtain ⟨r', r1, r2⟩ := q p.1.1 (by rw [hz]; exact (t3 _).2 (.inl (List.mem_map_of_mem hpit)))
                (by rw [hco]; exact overflowOut_some hov) p.1.2 (by rw [hci]; exact lookup_of_nodup hids hpit)
              rw [hr, Option.some.injEq] at r1
              rw [r1]; exact r2
            · cases ha
      · rw [t1] at ha; cases ha
    have := cut_meaning hlaw (hc _ hpit) hm hcut hs
    rw [(stream_like hlaw hs).rate]
    exact this
  · cases hnew

/-- **C79.** Without overflows every train gets its share of the inlet rate. -/
theorem C79_no_overflow {env : Env κ} (hlaw : Lawful env.svc) {inlet : Stream} {items : List (α × Item κ)}
    {fractions : List ℚ} {c : Shared α κ} (hnew : Shared.new inlet items fractions [] = .ok c)
    (hc : ∀ p ∈ items, Closed p.2.sec) (hids : (items.map (·.1)).Nodup) (hlen : fractions.length = items.length)
    {streams : List Stream} {st st' : Settings κ} (h : c.getStreams env st = (.ok streams, st')) :
    streams.map (·.stdRate) = fractions.map (inlet.stdRate * ·) := by
  unfold Shared.new at hnew
  dsimp only at hnew
  split at hnew
  · rename_i hac
    cases hnew
    obtain ⟨rates, h1, h2⟩ := streams_refine hlaw (c := ⟨inlet, items, _, [], _⟩) hc h
    generalize hcdef : (⟨inlet, items, fractions.map (inlet.stdRate * ·), [],
      overflowGraph (items.map (·.1)) []⟩ : Shared α κ) = c at *
    have hm : (items.map fun p => (p.1, pureExcess env c p.2)).map (·.1) = items.map (·.1) := by simp
    obtain ⟨c', k1, k2⟩ := C37.C37_no_overflow inlet.stdRate (items.map fun p => (p.1, pureExcess env c p.2)) fractions
      (by rw [hm]; exact hids) (by simp [hlen])
    have hpn : Common.new inlet.stdRate (items.map fun p => (p.1, pureExcess env c p.2)) fractions [] =
        .ok (onRates env c) := by
      unfold Common.new
      rw [hm]
      dsimp only
      rw [if_pos hac]
      unfold onRates
      rw [← hcdef]
    rw [hpn, Except.ok.injEq] at k1
    subst k1
    rw [h1, Except.ok.injEq] at k2
    rw [← k2]
    clear h1 k2 h
    induction h2 with
    | nil => rfl
    | cons ha _ ih => rw [List.map_cons, (stream_like hlaw ha).rate, ih]
  · cases hnew

/-! ### Independence of earlier use -/

theorem step_fresh {env : Env κ} (hlaw : Lawful env.svc) {c : Shared α κ} (hc : ∀ p ∈ c.items, Closed p.2.sec)
    (acc : Adjusted α) (p : α × ℚ) (st st' : Settings κ) :
    (c.adjustStep env acc p st).1 = (c.adjustStep env acc p st').1 := by
  unfold Shared.adjustStep
  dsimp only
  cases overflowOut c.overflows p.1 with
  | none => rfl
  | some o =>
    dsimp only
    cases hl : c.items.lookup p.1 with
    | none => rfl
    | some it =>
      dsimp only
      cases hs : c.stream env.svc (p.2 + ((acc.1.lookup p.1).getD []).sum) with
      | error e => rfl
      | ok s =>
        dsimp only
        have hh := C78.C78_history (hc _ (mem_lookup hl)) env (stream_like hlaw hs).valid st st'
        generalize it.excess env s st = a at hh ⊢
        generalize it.excess env s st' = b at hh ⊢
        obtain ⟨a1, a2⟩ := a
        obtain ⟨b1, b2⟩ := b
        dsimp only at hh
        subst hh
        cases a1 <;> rfl

theorem adjustLoop_fresh {env : Env κ} (hlaw : Lawful env.svc) {c : Shared α κ} (hc : ∀ p ∈ c.items, Closed p.2.sec) :
    ∀ (ps : List (α × ℚ)) (acc : Adjusted α) (st st' : Settings κ),
    (c.adjustLoop env ps acc st).1 = (c.adjustLoop env ps acc st').1 := by
  intro ps
  induction ps with
  | nil => intro acc st st'; rfl
  | cons p ps ih =>
    intro acc st st'
    have hh := step_fresh hlaw hc acc p st st'
    rw [Shared.adjustLoop, Shared.adjustLoop]
    generalize c.adjustStep env acc p st = a at hh ⊢
    generalize c.adjustStep env acc p st' = b at hh ⊢
    obtain ⟨a1, a2⟩ := a
    obtain ⟨b1, b2⟩ := b
    dsimp only at hh
    subst hh
    cases a1 with
    | error e => rfl
    | ok acc1 => exact ih _ _ _

/-- **C79.** The streams do not depend on what the trains were used for before. -/
theorem C79_history {env : Env κ} (hlaw : Lawful env.svc) {c : Shared α κ} (hc : ∀ p ∈ c.items, Closed p.2.sec)
    (st st' : Settings κ) : (c.getStreams env st).1 = (c.getStreams env st').1 := by
  have ha : (c.adjust env st).1 = (c.adjust env st').1 := by
    unfold Shared.adjust
    cases c.graph.topologicalSort with
    | error e => rfl
    | ok sorted =>
      dsimp only
      have hh := adjustLoop_fresh hlaw hc (sorted.zip c.rates) ([], []) st st'
      generalize c.adjustLoop env (sorted.zip c.rates) ([], []) st = a at hh ⊢
      generalize c.adjustLoop env (sorted.zip c.rates) ([], []) st' = b at hh ⊢
      obtain ⟨a1, a2⟩ := a
      obtain ⟨b1, b2⟩ := b
      dsimp only at hh
      subst hh
      cases a1 with
      | error e => rfl
      | ok acc => dsimp only; split <;> rfl
  unfold Shared.getStreams
  generalize c.adjust env st = a at ha ⊢
  generalize c.adjust env st' = b at ha ⊢
  obtain ⟨a1, a2⟩ := a
  obtain ⟨b1, b2⟩ := b
  dsimp only at ha
  subst ha
  cases a1 <;> rfl

/-! ### Priorities -/

/-- A distribution whose streams are streams the code can hold and whose trains are controlled by their solvers. -/
def Sane : Source α κ → Prop
  | .individual streams => ∀ s ∈ streams, Valid s
  | .shared c => ∀ p ∈ c.items, Closed p.2.sec

theorem source_fresh {env : Env κ} (hlaw : Lawful env.svc) {d : Source α κ} (hd : Sane d) (st st' : Settings κ) :
    (d.getStreams env st).1 = (d.getStreams env st').1 := by
  cases d with
  | individual streams => rfl
  | shared c => exact C79_history hlaw hd st st'

theorem source_valid {env : Env κ} (hlaw : Lawful env.svc) {d : Source α κ} (hd : Sane d) {st st' : Settings κ}
    {streams : List Stream} (h : d.getStreams env st = (.ok streams, st')) : ∀ s ∈ streams, Valid s := by
  cases d with
  | individual ss => cases h; exact hd
  | shared c =>
    obtain ⟨rs, st2, -, h2⟩ := streams_lookup (c := c) h
    intro s hs
    clear h
    generalize c.items = its at h2
    induction h2 with
    | nil => cases hs
    | cons ha _ ih =>
      rw [List.mem_cons] at hs
      rcases hs with rfl | hs
      · obtain ⟨r, -, hr⟩ := ha
        exact (stream_like hlaw hr).valid
      · exact ih hs

theorem allValid_spec {env : Env κ} : ∀ (items : List (Item κ)) (ss : List Stream), (∀ it ∈ items, Closed it.sec) →
    (∀ s ∈ ss, Valid s) → ∀ (st st' : Settings κ) (b : Bool), Feasibility.allValid env items ss st = (.ok b, st') →
    if b then items.length = ss.length ∧ ∀ p ∈ items.zip ss, Copes env p.1 p.2
    else ∃ p ∈ items.zip ss, ¬ Copes env p.1 p.2 := by
  intro items
  induction items with
  | nil =>
    intro ss _ _ st st' b h
    cases ss with
    | nil => cases h; simp
    | cons s ss => cases h
  | cons it items ih =>
    intro ss hc hv st st' b h
    cases ss with
    | nil => cases h
    | cons s ss =>
      rw [Feasibility.allValid] at h
      cases hi : it.isValid env s st with
      | mk a1 a2 =>
        rw [hi] at h
        cases a1 with
        | error e => cases h
        | ok v =>
          have hval := C78.C78_valid (hc it (by simp)) env (hv s (by simp)) hi
          cases v with
          | true =>
            have := ih ss (fun i hi => hc i (by simp [hi])) (fun s hs => hv s (by simp [hs])) _ _ _ h
            cases b with
            | true =>
              simp only [if_true] at this ⊢
              refine ⟨by simp [this.1], ?_⟩
              intro p hp
              rw [List.zip_cons_cons, List.mem_cons] at hp
              rcases hp with rfl | hp
              · exact hval.1 rfl
              · exact this.2 p hp
            | false =>
              simp only [Bool.false_eq_true, if_false] at this ⊢
              obtain ⟨p, p1, p2⟩ := this
              exact ⟨p, by simp [p1], p2⟩
          | false =>
            cases h
            simp only [Bool.false_eq_true, if_false]
            exact ⟨(it, s), by simp, fun hcop => by cases hval.2 hcop⟩

/-- Some train cannot cope with its stream of the distribution. -/
def Overloaded (env : Env κ) (items : List (Item κ)) (d : Source α κ) : Prop :=
  ∃ ss, (d.getStreams env fun _ => 0).1 = .ok ss ∧ ∃ p ∈ items.zip ss, ¬ Copes env p.1 p.2

theorem findLoop_spec {env : Env κ} (hlaw : Lawful env.svc) {items : List (Item κ)} (hc : ∀ it ∈ items, Closed it.sec) :
    ∀ (ds : List (Source α κ)), (∀ d ∈ ds, Sane d) → ∀ (last : List Stream) (st st' : Settings κ) (streams : List Stream),
      Feasibility.findLoop env items ds last st = (.ok streams, st') →
      (ds = [] ∧ streams = last) ∨
      ∃ l1 d l2, ds = l1 ++ d :: l2 ∧ (d.getStreams env fun _ => 0).1 = .ok streams ∧ (∀ d' ∈ l1, Overloaded env items d') ∧
        ((items.length = streams.length ∧ ∀ p ∈ items.zip streams, Copes env p.1 p.2) ∨
          (l2 = [] ∧ Overloaded env items d)) := by
  intro ds
  induction ds with
  | nil => intro _ last st st' streams h; cases h; exact .inl ⟨rfl, rfl⟩
  | cons d ds ih =>
    intro hd last st st' streams h
    right
    have hsd := hd d (by simp)
    rw [Feasibility.findLoop] at h
    cases h1 : d.getStreams env st with
    | mk a1 a2 =>
      rw [h1] at h
      cases a1 with
      | error e => cases h
      | ok ss =>
        dsimp only at h
        have hss : (d.getStreams env fun _ => 0).1 = .ok ss := by
          rw [source_fresh hlaw hsd _ st, h1]
        have hagain : (d.getStreams env a2).1 = .ok ss := by
          rw [source_fresh hlaw hsd _ st, h1]
        cases h2 : d.getStreams env a2 with
        | mk b1 b2 =>
          rw [h2] at h hagain
          dsimp only at hagain
          subst hagain
          dsimp only at h
          cases h3 : Feasibility.allValid env items ss b2 with
          | mk c1 c2 =>
            rw [h3] at h
            cases c1 with
            | error e => cases h
            | ok v =>
              have hv := allValid_spec items ss hc (source_valid hlaw hsd h1) _ _ _ h3
              cases v with
              | true =>
                cases h
                simp only [if_true] at hv
                exact ⟨[], d, ds, rfl, hss, by simp, .inl hv⟩
              | false =>
                simp only [Bool.false_eq_true, if_false] at hv
                have hov : Overloaded env items d := ⟨ss, hss, hv⟩
                rcases ih (fun d' h' => hd d' (by simp [h'])) _ _ _ _ h with ⟨rfl, rfl⟩ | ⟨l1, d', l2, q1, q2, q3, q4⟩
                · exact ⟨[], d, [], rfl, hss, by simp, .inr ⟨rfl, hov⟩⟩
                · refine ⟨d :: l1, d', l2, by rw [q1]; rfl, q2, ?_, q4⟩
                  intro d'' h''
                  rw [List.mem_cons] at h''
                  rcases h'' with rfl | h''
                  · exact hov
                  · exact q3 d'' h''

/-- **C79.** With priorities, the streams used are those of the first distribution that every train can cope with; if
there is none, those of the last distribution. -/
theorem C79_priorities {env : Env κ} (hlaw : Lawful env.svc) {items : List (Item κ)} (hc : ∀ it ∈ items, Closed it.sec)
    {ds : List (Source α κ)} (hd : ∀ d ∈ ds, Sane d) {st st' : Settings κ} {streams : List Stream}
    (h : Feasibility.findFirstValid env ds items st = (.ok streams, st')) :
    ∃ l1 d l2, ds = l1 ++ d :: l2 ∧ (d.getStreams env fun _ => 0).1 = .ok streams ∧
      (∀ d' ∈ l1, Overloaded env items d') ∧
      ((items.length = streams.length ∧ ∀ p ∈ items.zip streams, Copes env p.1 p.2) ∨
        (l2 = [] ∧ Overloaded env items d)) := by
  unfold Feasibility.findFirstValid at h
  cases ds with
  | nil => cases h
  | cons d ds =>
    rcases findLoop_spec hlaw hc (d :: ds) hd _ _ _ _ h with ⟨h1, -⟩ | h1
    · cases h1
    · exact h1

/-! ## Examples -/

/-- Two trains like that of C73, with their own handlers. -/
def second : Sec Nat := ⟨[.mix 4, .comp C73.pusher, .split 4, .choke 5], [4], 3, ⟨10, 100⟩, .downstreamChoke 5⟩


/-- The second train. -/
def other : Item Nat := { sec := second, value := 70, tol := 1 / 1000 }

/-- The rates of the streams of a distribution, or nothing if it raises. -/
def ratesOf (x : Except DErr (List Stream) × Settings Nat) : Option (List ℚ) := x.1.toOption.map fun l => l.map (·.stdRate)

/-- Both trains, the first one with an overflow to the second. -/
def pair (mass : ℚ) (fractions : List ℚ) : Shared String Nat :=
  ⟨C73.inlet mass, [("a", C78.usual), ("b", other)], fractions.map ((C73.inlet mass).stdRate * ·), [⟨"a", "b"⟩],
    overflowGraph ["a", "b"] [⟨"a", "b"⟩]⟩

theorem pair_new (mass : ℚ) (fractions : List ℚ) :
    Shared.new (C73.inlet mass) [("a", C78.usual), ("b", other)] fractions [⟨"a", "b"⟩] = .ok (pair mass fractions) := by
  unfold Shared.new
  have : (overflowGraph (([("a", C78.usual), ("b", other)] : List (String × Item Nat)).map (·.1)) [⟨"a", "b"⟩]).isAcyclic
      = true := by decide +kernel
  dsimp only
  rw [if_pos this]
  rfl

theorem other_closed : Closed other.sec := by
  intro u hu k hk
  simp [other, second] at hu
  rcases hu with rfl | rfl | rfl | rfl <;> simp [C73.slotHandler] at hk <;> subst hk <;>
    simp [C73.handlers, other, second, Sec.surgeHandlers, Sec.controlHandlers]

/-- Rates within the capacity are passed on; above it, the rest goes to the second train. -/
example : ratesOf ((pair 2000 [8 / 10, 2 / 10]).getStreams C73.world fun _ => 3) = some [48000, 12000] ∧
    ratesOf ((pair 3500 [8 / 10, 2 / 10]).getStreams C73.world fun _ => 3) = some [30720375 / 512, 23039625 / 512] := by
  decide +kernel

/-- The second distribution is used when the first one overloads a train. -/
example : ratesOf (Feasibility.findFirstValid C73.world
    [.shared (pair 2200 [1 / 100, 99 / 100]), .shared (pair 2200 [1 / 2, 1 / 2])] [C78.usual, other] fun _ => 3) =
    some [33000, 33000] := by decide +kernel

theorem answer_of {it : Item Nat} {s : Stream} {b : Bool} (h : (C78.answer C73.world it s).toOption = some b) :
    C78.answer C73.world it s = .ok b := by
  generalize C78.answer C73.world it s = a at h ⊢
  cases a with
  | error e => cases h
  | ok x => cases h; rfl

/-- **Deviation.** A distribution with an overflow is rejected although the two trains can share the stream in that way:
the first train is left with slightly more than it handles. The next distribution is used, which overloads the second
train by more than half. -/
theorem C79_rejected : ∃ (d d' : Shared String Nat) (items : List (Item Nat)) (streams : List Stream) (st' : Settings Nat),
    Feasibility.findFirstValid C73.world [.shared d, .shared d'] items (fun _ => 0) = (.ok streams, st') ∧
    ratesOf (d.getStreams C73.world fun _ => 0) = some [30720375 / 512, 23039625 / 512] ∧
    streams.map (·.stdRate) = [10500, 94500] ∧ items = [C78.usual, other] ∧
    Handles C73.world C78.usual (atRate (C73.inlet 3500) 59999) ∧ Handles C73.world other (atRate (C73.inlet 3500) 45001) ∧
    Refuses C73.world other (atRate (C73.inlet 3500) 94500) ∧ Handles C73.world other (atRate (C73.inlet 3500) 59999) := by
  have h : ratesOf (Feasibility.findFirstValid C73.world
    [.shared (pair 3500 [8 / 10, 2 / 10]), .shared (pair 3500 [1 / 10, 9 / 10])] [C78.usual, other] fun _ => 0) =
    some [10500, 94500] := by decide +kernel
  cases he : Feasibility.findFirstValid C73.world
    [.shared (pair 3500 [8 / 10, 2 / 10]), .shared (pair 3500 [1 / 10, 9 / 10])] [C78.usual, other] fun _ => 0 with
  | mk a1 a2 =>
    rw [he] at h
    cases a1 with
    | error e => cases h
    | ok streams =>
      refine ⟨_, _, _, streams, a2, he, by decide +kernel, ?_, rfl, C78.answer_true.1 (answer_of (by decide +kernel)),
        C78.answer_true.1 (answer_of (by decide +kernel)), C78.answer_false.1 (answer_of (by decide +kernel)),
        C78.answer_true.1 (answer_of (by decide +kernel))⟩
      simpa [ratesOf, Except.toOption] using h

end Verif.C79
