import Verif.Props.C41
import Verif.Props.C76

/-!
# C77: individual anti-surge valves keep every compressor out of surge
-/

namespace Verif.C77
open Verif.Process Verif.Finders Verif.Solver Verif.Section Verif.Assembly
open Verif.C40 (Lawful RootWithin)
open Verif.C41 (Standard)
open Verif.C73 (handlers Closed slotHandler put_self put_other)
open Verif.C76 (Paired InLoop before_nil_of_count before_append_right)

/-! ## Specification -/

/-- An exception that is not the one for a flow below a compressor's minimum. -/
def NotSurge : PErr → Prop
  | .surge _ _ => False
  | _ => True

/-- What is assumed of the fluid service: flashes keep the standard density of the fluid (`Lawful`), give positive
densities, and do not raise the exception of a compressor in surge. -/
structure Physical (svc : Service) : Prop where
  lawful : Lawful svc
  pt : ∀ m p t r, svc.flashPT m p t = .ok r → 0 < r.density
  ph : ∀ m p h g r, svc.flashPH m p h g = .ok r → 0 < r.density ∧ r.stdDensity = svc.stdDensity m
  removed : ∀ m q m' r, svc.removeLiquid m q = .ok (m', r) → 0 < r.density ∧ r.stdDensity = svc.stdDensity m'
  ptError : ∀ m p t e, svc.flashPT m p t = .error e → NotSurge e
  phError : ∀ m p h g e, svc.flashPH m p h g = .error e → NotSurge e
  removedError : ∀ m q e, svc.removeLiquid m q = .error e → NotSurge e

/-- A stream with the standard density of its fluid, a positive density and a rate that is not negative. -/
def Good (svc : Service) (s : Stream) : Prop := Standard svc s ∧ 0 < s.props.density ∧ 0 ≤ s.mass

/-- What is assumed of a compressor: its outlet calculation gives such streams and does not raise the exception for surge. -/
def GoodCompressor (svc : Service) (c : Compressor) : Prop :=
  (∀ n s o, c.outlet n s = .ok o → Good svc s → Good svc o) ∧ (∀ n s e, c.outlet n s = .error e → NotSurge e)

/-- Along a run of the units, liquid removers find nothing to remove. -/
def Dry (svc : Service) : List ProcUnit → Stream → Prop
  | [], _ => True
  | u :: us, s => (u = .liquidRemover → pureVapor ≤ s.props.vapor) ∧ ∀ t, u.propagate svc s = .ok t → Dry svc us t

/-- Units between the mixer of a loop and its compressor find nothing to remove, at given settings. -/
def DryLoops (svc : Service) (sec : Sec Nat) (st : Settings Nat) (s : Stream) : Prop :=
  ∀ a l us c rest, sec.slots = a ++ .mix l :: (us.map Slot.fixed ++ .comp c :: rest) →
    ∀ t, runUnits svc (a.map (Slot.unit sec.shaft st)) s = .ok t → Dry svc us t

/-- A section with one loop per compressor, as assembled (C76), all of whose compressors are on its shaft. -/
structure Individual (sec : Sec Nat) : Prop where
  paired : Paired sec.slots sec.loops
  count : sec.slots.countP isComp = sec.loops.length
  nodup : sec.loops.Nodup
  shaft : sec.shaft ∉ sec.loops
  plain : ∀ u ∈ sec.slots, ∀ v, u = .fixed v →
    (∀ c, v ≠ .compressor c) ∧ (∀ r, v ≠ .directMixer r) ∧ (∀ r, v ≠ .directSplitter r)

/-! ## Units -/

theorem make_ok {m : FluidModel} {p : Props} {x : ℚ} {o : Stream} (h : Stream.make m p x = .ok o) :
    o = ⟨m, p, x⟩ ∧ 0 ≤ x := C41.make_ok m p x o h

theorem make_error {m : FluidModel} {p : Props} {x : ℚ} {e : PErr} (h : Stream.make m p x = .error e) : NotSurge e := by
  unfold Stream.make at h
  split at h
  · cases h; trivial
  · cases h

theorem bind_error {α β : Type} {x : Except PErr α} {f : α → Except PErr β} {e : PErr} (h : (x >>= f) = .error e) :
    x = .error e ∨ ∃ a, x = .ok a ∧ f a = .error e := by
  cases x with
  | error e' => left; cases h; rfl
  | ok a => exact .inr ⟨a, rfl, h⟩

theorem fromStd_good {svc : Service} (hs : Physical svc) {m : FluidModel} {p t r : ℚ} {o : Stream}
    (h : svc.fromStdRate m p t r = .ok o) : Good svc o := by
  obtain ⟨h1, h2, h3, h4⟩ := C40.fromStdRate_ok svc m p t r o h
  refine ⟨?_, hs.pt _ _ _ _ h1, h4⟩
  unfold Standard
  rw [hs.lawful.density _ _ _ _ h1, h2]

theorem fromStd_error {svc : Service} (hs : Physical svc) {m : FluidModel} {p t r : ℚ} {e : PErr}
    (h : svc.fromStdRate m p t r = .error e) : NotSurge e := by
  unfold Service.fromStdRate at h
  rcases bind_error h with h | ⟨a, -, h⟩
  · exact hs.ptError _ _ _ _ h
  · exact make_error h

theorem choke_good {svc : Service} (hs : Physical svc) {dp : ℚ} {s o : Stream} (hg : Good svc s)
    (h : choke svc dp s = .ok o) : Good svc o := by
  unfold choke at h
  split at h
  · dsimp only at h
    split at h
    · cases h
    · exact fromStd_good hs h
  · cases h; exact hg

theorem choke_error {svc : Service} (hs : Physical svc) {dp : ℚ} {s : Stream} {e : PErr}
    (h : choke svc dp s = .error e) : NotSurge e := by
  unfold choke at h
  split at h
  · dsimp only at h
    split at h
    · cases h; trivial
    · exact fromStd_error hs h
  · cases h

theorem normalized_error {c : Composition} {e : PErr} (h : Composition.normalized c = .error e) : NotSurge e := by
  unfold Composition.normalized Composition.make at h
  split at h
  · cases h; trivial
  · split at h
    · cases h
    · cases h; trivial

theorem mixMoles_error {e : PErr} : ∀ {ss : List Stream}, mixMoles ss = .error e → NotSurge e := by
  intro ss
  induction ss with
  | nil => intro h; cases h
  | cons s ss ih =>
    intro h
    simp only [mixMoles] at h
    rcases bind_error h with h | ⟨c, -, h⟩
    · exact normalized_error h
    · rcases bind_error h with h | ⟨c, -, h⟩
      · exact ih h
      · cases h

theorem mixStreams_good {svc : Service} (hs : Physical svc) {ss : List Stream} {o : Stream}
    (h : mixStreams svc ss = .ok o) : Good svc o := by
  unfold mixStreams at h
  split at h
  · cases h
  · dsimp only at h
    split at h
    · cases h
    · split at h
      · cases h
      · obtain ⟨q1, -, h⟩ := C74.bind_ok h
        obtain ⟨q2, -, h⟩ := C74.bind_ok h
        obtain ⟨q3, -, h⟩ := C74.bind_ok h
        obtain ⟨q4, h4, h⟩ := C74.bind_ok h
        obtain ⟨rfl, hm⟩ := make_ok h
        obtain ⟨g1, g2⟩ := hs.ph _ _ _ _ _ h4
        exact ⟨g2, g1, hm⟩

theorem mixStreams_error {svc : Service} (hs : Physical svc) {ss : List Stream} {e : PErr}
    (h : mixStreams svc ss = .error e) : NotSurge e := by
  unfold mixStreams at h
  split at h
  · cases h; trivial
  · dsimp only at h
    split at h
    · cases h; trivial
    · split at h
      · cases h; trivial
      · rcases bind_error h with h | ⟨q1, -, h⟩
        · exact mixMoles_error h
        rcases bind_error h with h | ⟨q2, -, h⟩
        · unfold Composition.make at h
          split at h
          · cases h
          · cases h; trivial
        rcases bind_error h with h | ⟨q3, -, h⟩
        · exact normalized_error h
        rcases bind_error h with h | ⟨q4, -, h⟩
        · exact hs.phError _ _ _ _ _ h
        exact make_error h

/-- Every unit hands on good streams. -/
theorem unit_good {svc : Service} (hs : Physical svc) {u : ProcUnit} (hu : ∀ c, u = .compressor c → GoodCompressor svc c)
    {s o : Stream} (hg : Good svc s) (h : u.propagate svc s = .ok o) : Good svc o := by
  cases u with
  | inlet => cases h; exact hg
  | outlet => cases h; exact hg
  | choke dp => exact choke_good hs hg h
  | pressureDropper dp => exact choke_good hs hg h
  | temperatureSetter t =>
    simp only [ProcUnit.propagate, setTemperature] at h
    split at h
    · obtain ⟨q, hq, h⟩ := C74.bind_ok h
      obtain ⟨rfl, hm⟩ := make_ok h
      exact ⟨hs.lawful.density _ _ _ _ hq, hs.pt _ _ _ _ hq, hm⟩
    · cases h; exact hg
  | liquidRemover =>
    simp only [ProcUnit.propagate, removeLiquid] at h
    split at h
    · obtain ⟨⟨m, q⟩, hq, h⟩ := C74.bind_ok h
      dsimp only at h
      split at h
      · obtain ⟨t, ht, h⟩ := C74.bind_ok h
        obtain ⟨rfl, -⟩ := make_ok ht
        obtain ⟨rfl, hm⟩ := make_ok h
        obtain ⟨g1, g2⟩ := hs.removed _ _ _ _ hq
        exact ⟨g2, g1, hm⟩
      · cases h
    · cases h; exact hg
  | directMixer r => obtain ⟨rfl, hm⟩ := make_ok h; exact ⟨hg.1, hg.2.1, hm⟩
  | directSplitter r => obtain ⟨rfl, hm⟩ := make_ok h; exact ⟨hg.1, hg.2.1, hm⟩
  | splitter r =>
    simp only [ProcUnit.propagate, split] at h
    split at h
    · cases h
    · exact fromStd_good hs h
  | mixer e =>
    simp only [ProcUnit.propagate, mixer] at h
    cases e with
    | none => cases h
    | some e => exact mixStreams_good hs h
  | compressor c =>
    simp only [ProcUnit.propagate, Compressor.propagate] at h
    split at h
    · cases h
    · obtain ⟨n, -, h⟩ := C74.bind_ok h
      split at h
      · cases h
      · split at h
        · cases h
        · exact (hu c rfl).1 _ _ _ h hg

/-- Only compressors raise the exception for surge. -/
theorem unit_error {svc : Service} (hs : Physical svc) {u : ProcUnit} (hu : ∀ c, u ≠ .compressor c)
    {s : Stream} {e : PErr} (h : u.propagate svc s = .error e) : NotSurge e := by
  cases u with
  | inlet => cases h
  | outlet => cases h
  | choke dp => exact choke_error hs h
  | pressureDropper dp => exact choke_error hs h
  | temperatureSetter t =>
    simp only [ProcUnit.propagate, setTemperature] at h
    split at h
    · rcases bind_error h with h | ⟨q, -, h⟩
      · exact hs.ptError _ _ _ _ h
      · exact make_error h
    · cases h
  | liquidRemover =>
    simp only [ProcUnit.propagate, removeLiquid] at h
    split at h
    · rcases bind_error h with h | ⟨⟨m, q⟩, -, h⟩
      · exact hs.removedError _ _ _ h
      · dsimp only at h
        split at h
        · rcases bind_error h with h | ⟨t, -, h⟩
          · exact make_error h
          · exact make_error h
        · cases h; trivial
    · cases h
  | directMixer r => exact make_error h
  | directSplitter r => exact make_error h
  | splitter r =>
    simp only [ProcUnit.propagate, split] at h
    split at h
    · cases h; trivial
    · exact fromStd_error hs h
  | mixer e =>
    simp only [ProcUnit.propagate, mixer] at h
    cases e with
    | none => cases h; trivial
    | some e => exact mixStreams_error hs h
  | compressor c => exact absurd rfl (hu c)

theorem run_good {svc : Service} (hs : Physical svc) : ∀ {us : List ProcUnit} {s o : Stream},
    (∀ c, .compressor c ∈ us → GoodCompressor svc c) → Good svc s → runUnits svc us s = .ok o → Good svc o := by
  intro us
  induction us with
  | nil => intro s o _ hg h; cases h; exact hg
  | cons u us ih =>
    intro s o hc hg h
    obtain ⟨t, ht, h⟩ := C74.bind_ok h
    exact ih (fun c hc' => hc c (by simp [hc'])) (unit_good hs (fun c e => hc c (by simp [e])) hg ht) h

/-- Units whose effect does not depend on the rate. -/
def Light (u : ProcUnit) : Prop :=
  isBoundary u = false ∧ (∀ c, u ≠ .compressor c) ∧ (∀ r, u ≠ .directMixer r) ∧ (∀ r, u ≠ .directSplitter r)

theorem choke_light {svc : Service} (hs : Physical svc) {dp : ℚ} {s o : Stream} (hg : Good svc s)
    (h : choke svc dp s = .ok o) :
    o.mass = s.mass ∧ o.model = s.model ∧ ∀ m, 0 ≤ m → choke svc dp { s with mass := m } = .ok { o with mass := m } := by
  have hne : svc.stdDensity s.model ≠ 0 := ne_of_gt (hs.lawful.positive s.model)
  unfold choke at h ⊢
  dsimp only
  by_cases hdp : dp > 0
  · rw [if_pos hdp] at h
    dsimp only at h
    by_cases hp : s.props.pressure - dp < 0
    · rw [if_pos hp] at h; cases h
    · rw [if_neg hp] at h
      obtain ⟨h1, h2, h3, h4⟩ := C40.fromStdRate_ok _ _ _ _ _ _ h
      refine ⟨?_, h2, ?_⟩
      · rw [h3]
        unfold Stream.stdRate
        rw [hg.1]
        field_simp
      · intro m hm
        rw [if_pos hdp, if_neg hp]
        unfold Service.fromStdRate
        rw [h1]
        simp only [Bind.bind, Except.bind]
        have e : ({ s with mass := m } : Stream).stdRate * svc.stdDensity s.model / 24 = m := by
          unfold Stream.stdRate
          dsimp only
          rw [hg.1]
          field_simp
        rw [e]
        unfold Stream.make
        rw [if_neg (not_lt.mpr hm), ← h2]
  · rw [if_neg hdp] at h
    cases h
    exact ⟨rfl, rfl, fun m _ => by rw [if_neg hdp]⟩

theorem unit_light {svc : Service} (hs : Physical svc) {u : ProcUnit} (hu : Light u) {s o : Stream} (hg : Good svc s)
    (hd : u = .liquidRemover → pureVapor ≤ s.props.vapor) (h : u.propagate svc s = .ok o) :
    o.mass = s.mass ∧ o.model = s.model ∧ ∀ m, 0 ≤ m → u.propagate svc { s with mass := m } = .ok { o with mass := m } := by
  obtain ⟨hb, hc, hm, hsp⟩ := hu
  cases u with
  | inlet => cases h; exact ⟨rfl, rfl, fun m _ => rfl⟩
  | outlet => cases h; exact ⟨rfl, rfl, fun m _ => rfl⟩
  | choke dp => exact choke_light hs hg h
  | pressureDropper dp => exact choke_light hs hg h
  | temperatureSetter t =>
    simp only [ProcUnit.propagate, setTemperature] at h ⊢
    by_cases ht : s.props.temperature ≠ t
    · rw [if_pos ht] at h
      obtain ⟨q, hq, h⟩ := C74.bind_ok h
      obtain ⟨rfl, -⟩ := make_ok h
      refine ⟨rfl, rfl, fun m hm => ?_⟩
      rw [if_pos ht, hq]
      simp only [Bind.bind, Except.bind]
      unfold Stream.make
      rw [if_neg (not_lt.mpr hm)]
    · rw [if_neg ht] at h
      cases h
      exact ⟨rfl, rfl, fun m _ => by rw [if_neg ht]⟩
  | liquidRemover =>
    have hv := not_lt.mpr (hd rfl)
    simp only [ProcUnit.propagate, removeLiquid] at h ⊢
    rw [if_neg hv] at h
    cases h
    exact ⟨rfl, rfl, fun m _ => by rw [if_neg hv]⟩
  | directMixer r => exact absurd rfl (hm r)
  | directSplitter r => exact absurd rfl (hsp r)
  | splitter r => cases hb
  | mixer e => cases hb
  | compressor c => exact absurd rfl (hc c)

theorem run_light {svc : Service} (hs : Physical svc) : ∀ {us : List ProcUnit} {s o : Stream}, (∀ u ∈ us, Light u) →
    Good svc s → Dry svc us s → runUnits svc us s = .ok o →
    o.mass = s.mass ∧ o.model = s.model ∧ ∀ m, 0 ≤ m → runUnits svc us { s with mass := m } = .ok { o with mass := m } := by
  intro us
  induction us with
  | nil => intro s o _ _ _ h; cases h; exact ⟨rfl, rfl, fun m _ => rfl⟩
  | cons u us ih =>
    intro s o hu hg hd h
    obtain ⟨t, ht, h⟩ := C74.bind_ok h
    obtain ⟨d1, d2⟩ := hd
    obtain ⟨a1, a2, a3⟩ := unit_light hs (hu u (by simp)) hg d1 ht
    have hgt := unit_good hs (fun c e => absurd e ((hu u (by simp)).2.1 c)) hg ht
    obtain ⟨b1, b2, b3⟩ := ih (fun v hv => hu v (by simp [hv])) hgt (d2 t ht) h
    refine ⟨by rw [b1, a1], by rw [b2, a2], fun m hm => ?_⟩
    simp only [runUnits, Bind.bind, Except.bind]
    rw [a3 m hm]
    exact b3 m hm

/-! ## One compressor -/

/-- The margin added to the flow limit of a compressor (a rate of 1e-6 Sm³/day). -/
def margin (svc : Service) (t : Stream) : ℚ := recircTol * svc.stdDensity t.model / (24 * t.props.density)

theorem margin_pos {svc : Service} (hs : Physical svc) {t : Stream} (hg : Good svc t) : 0 < margin svc t := by
  have h1 := hs.lawful.positive t.model
  have h2 := hg.2.1
  have : (0 : ℚ) < recircTol := by unfold recircTol; norm_num
  unfold margin
  positivity

/-- The lower end of the recirculation range lifts the flow to the limit and the margin; it is 0 if the flow was there already. -/
theorem range_lower {svc : Service} (hs : Physical svc) {c : Compressor} {n : ℚ} (hn : c.speed = some n) {t : Stream}
    (hg : Good svc t) {b : Boundary} (hb : c.recircRange svc t = .ok b) :
    0 ≤ b.min ∧ (∀ v, b.min ≤ v → c.minFlow n + margin svc t ≤ (t.mass + v * t.props.stdDensity / 24) / t.props.density) ∧
    (b.min = 0 ∨ c.minFlow n + margin svc t = (t.mass + b.min * t.props.stdDensity / 24) / t.props.density) := by
  have hpos := hs.lawful.positive t.model
  have hne : svc.stdDensity t.model ≠ 0 := ne_of_gt hpos
  obtain ⟨hst, hd, -⟩ := hg
  have hdn : t.props.density ≠ 0 := ne_of_gt hd
  have hb' : c.recircRange svc t = .ok ⟨max 0 (svc.massToStd t.model (c.minFlow n * t.props.density) + recircTol - t.stdRate),
      max 0 (svc.massToStd t.model (c.maxFlow n * t.props.density) - recircTol - t.stdRate)⟩ := by
    unfold Compressor.recircRange Compressor.minStdRate Compressor.maxStdRate Compressor.getSpeed
    rw [hn]
    rfl
  rw [hb] at hb'
  cases hb'
  have key : ∀ v, (t.mass + v * t.props.stdDensity / 24) / t.props.density - (c.minFlow n + margin svc t) =
      (v - (svc.massToStd t.model (c.minFlow n * t.props.density) + recircTol - t.stdRate)) *
        (svc.stdDensity t.model / (24 * t.props.density)) := by
    intro v
    unfold margin Service.massToStd Stream.stdRate
    rw [hst]
    field_simp
    ring
  refine ⟨le_max_left _ _, fun v hv => ?_, ?_⟩
  · have h1 : 0 ≤ v - (svc.massToStd t.model (c.minFlow n * t.props.density) + recircTol - t.stdRate) := by
      have := le_trans (le_max_right _ _) hv
      linarith
    have h2 : 0 ≤ svc.stdDensity t.model / (24 * t.props.density) := by positivity
    have := mul_nonneg h1 h2
    rw [← key v] at this
    linarith
  · dsimp only
    rcases le_total (svc.massToStd t.model (c.minFlow n * t.props.density) + recircTol - t.stdRate) 0 with h | h
    · left; exact max_eq_left h
    · right
      rw [max_eq_right h]
      have := key (svc.massToStd t.model (c.minFlow n * t.props.density) + recircTol - t.stdRate)
      rw [sub_self, zero_mul] at this
      linarith

/-! ## One step -/

/-- Compressor `i` has an inlet stream at or above its minimum flow. -/
def SafeAt (svc : Service) (sec : Sec Nat) (st : Settings Nat) (s : Stream) (i : Nat) : Prop :=
  ∃ c t, sec.runTo svc st s i = .ok (c, t) ∧ c.minFlow (st sec.shaft) ≤ t.volRate

theorem unit_eq {shaft : Nat} {st st' : Settings Nat} {u : Slot Nat} (hs : st shaft = st' shaft)
    (hu : ∀ k, slotHandler u = some k → st k = st' k) : Slot.unit shaft st u = Slot.unit shaft st' u := by
  cases u with
  | fixed u => rfl
  | mix l => simp only [Slot.unit]; rw [hu l rfl]
  | split l => simp only [Slot.unit]; rw [hu l rfl]
  | choke l => simp only [Slot.unit]; rw [hu l rfl]
  | comp c => simp only [Slot.unit]; rw [hs]

/-- What happens in front of a compressor does not depend on the loops of later compressors. -/
theorem runTo_local {sec : Sec Nat} (hi : Individual sec) (svc : Service) {w w' : Settings Nat} (s : Stream) (i : Nat)
    (h : ∀ k, k ∉ sec.loops ∨ k ∈ sec.loops.take (i + 1) → w k = w' k) : sec.runTo svc w s i = sec.runTo svc w' s i := by
  unfold Sec.runTo
  have hs : w sec.shaft = w' sec.shaft := h _ (.inl hi.shaft)
  cases hb : before sec.slots i with
  | none => rfl
  | some r =>
    obtain ⟨pre, c⟩ := r
    dsimp only
    have : pre.map (Slot.unit sec.shaft w) = pre.map (Slot.unit sec.shaft w') := by
      refine List.map_congr_left fun u hu => unit_eq hs fun k hk => h k ?_
      by_cases hm : k ∈ sec.loops
      · exact .inr (hi.paired.early hi.count hb hu hk hm)
      · exact .inl hm
    rw [this, hs]

theorem comp_fixed {sec : Sec Nat} (hi : Individual sec) {svc : Service}
    (hg : ∀ c, .comp c ∈ sec.slots → GoodCompressor svc c) {p : List (Slot Nat)} (hp : ∀ u ∈ p, u ∈ sec.slots)
    (w : Settings Nat) (c : Compressor) (hc : .compressor c ∈ p.map (Slot.unit sec.shaft w)) : GoodCompressor svc c := by
  obtain ⟨u, hu, he⟩ := List.mem_map.mp hc
  cases u with
  | fixed v => exact absurd he ((hi.plain _ (hp _ hu) v rfl).1 c)
  | mix l => cases he
  | split l => cases he
  | choke l => cases he
  | comp d =>
    simp only [Slot.unit, ProcUnit.compressor.injEq] at he
    subst he
    exact hg d (hp _ hu)

/-- The parts of a loop: what the range of a compressor is computed from, and what reaches the compressor when its loop is
given a rate. -/
theorem range_parts {svc : Service} (hs : Physical svc) {sec : Sec Nat} (hi : Individual sec)
    (hg : ∀ c, .comp c ∈ sec.slots → GoodCompressor svc c) {s : Stream} (hgs : Good svc s) {st : Settings Nat}
    (hdry : DryLoops svc sec st s) {i l : Nat} (hl : sec.loops[i]? = some l) (hz : st l = 0) {b : Boundary}
    (hb : sec.range svc st s i = .ok b) :
    ∃ c t, c.speed = some (st sec.shaft) ∧ Good svc t ∧ c.recircRange svc t = .ok b ∧
      ∀ v, 0 ≤ v → sec.runTo svc (st.put l v) s i = .ok (c, { t with mass := t.mass + v * t.props.stdDensity / 24 }) := by
  unfold Sec.range at hb
  obtain ⟨⟨c, t⟩, hr, hb⟩ := C74.bind_ok hb
  unfold Sec.runTo at hr
  cases hbe : before sec.slots i with
  | none => rw [hbe] at hr; cases hr
  | some r =>
    obtain ⟨pre, c0⟩ := r
    rw [hbe] at hr
    dsimp only at hr
    obtain ⟨t', ht, hr⟩ := C74.bind_ok hr
    cases hr
    obtain ⟨l', a, us, d, h1, h2, h3, h4, -, h6⟩ := hi.paired i pre c0 hbe
    rw [hl] at h1
    cases h1
    have hls : l ∈ sec.loops := List.mem_of_getElem? hl
    have hsh : sec.shaft ≠ l := fun e => hi.shaft (e ▸ hls)
    obtain ⟨vs, rfl⟩ : ∃ vs : List ProcUnit, us = vs.map Slot.fixed := by
      clear h2 h3
      induction us with
      | nil => exact ⟨[], rfl⟩
      | cons u us ih =>
        obtain ⟨v, rfl, -⟩ := h4 u (by simp)
        obtain ⟨vs, rfl⟩ := ih fun u hu => h4 u (by simp [hu])
        exact ⟨v :: vs, rfl⟩
    have hmap : ∀ w : Settings Nat, (vs.map Slot.fixed).map (Slot.unit sec.shaft w) = vs := by
      intro w; rw [List.map_map]; exact List.map_id' vs
    have hlight : ∀ u ∈ vs, Light u := by
      intro u hu
      obtain ⟨v, hv, h5, h7⟩ := h4 (.fixed u) (List.mem_map.mpr ⟨u, hu, rfl⟩)
      cases hv
      have hm : Slot.fixed u ∈ sec.slots := by
        rw [h2]; simp [hu]
      exact ⟨h5, (hi.plain _ hm u rfl).1, (hi.plain _ hm u rfl).2.1, (hi.plain _ hm u rfl).2.2⟩
    have hsub : ∀ u ∈ a, u ∈ sec.slots := by intro u hu; rw [h2]; simp [hu]
    have hcs : Slot.comp c0 ∈ sec.slots := by rw [h2]; simp
    rw [h3, List.map_append, List.map_cons, hmap, C40.runUnits_append] at ht
    obtain ⟨t0, ht0, ht⟩ := C74.bind_ok ht
    have hg0 : Good svc t0 := run_good hs (comp_fixed hi hg hsub st) hgs ht0
    have hdir : (Slot.unit sec.shaft st (.mix l)).propagate svc t0 = .ok t0 := by
      simp only [Slot.unit, ProcUnit.propagate, hz]
      unfold directMix Stream.withMass Stream.make
      simp only [zero_mul, zero_div, add_zero]
      rw [if_neg (not_lt.mpr hg0.2.2)]
    simp only [runUnits] at ht
    rw [hdir] at ht
    simp only [Bind.bind, Except.bind] at ht
    obtain ⟨m1, m2, m3⟩ := run_light hs hlight hg0 (hdry a l vs c0 _ h2 t0 ht0) ht
    have hgt : Good svc t := run_good hs (fun c hc => absurd rfl ((hlight _ hc).2.1 c)) hg0 ht
    refine ⟨{ c0 with speed := some (st sec.shaft) }, t, rfl, hgt, hb, ?_⟩
    intro v hv
    have hpos := hs.lawful.positive t0.model
    have hstd : t.props.stdDensity = t0.props.stdDensity := by rw [hgt.1, hg0.1, m2]
    have hnn : 0 ≤ t0.mass + v * t0.props.stdDensity / 24 := by
      have := hg0.2.2
      rw [hg0.1]
      positivity
    have hamap : a.map (Slot.unit sec.shaft (st.put l v)) = a.map (Slot.unit sec.shaft st) := by
      refine List.map_congr_left fun u hu => unit_eq (put_other _ _ _ _ hsh) fun k hk => put_other _ _ _ _ ?_
      intro e
      exact h6 u (by simp [hu]) (e ▸ hk)
    unfold Sec.runTo
    rw [hbe]
    dsimp only
    rw [h3, List.map_append, List.map_cons, hmap, C40.runUnits_append, hamap, ht0]
    simp only [Bind.bind, Except.bind, runUnits]
    have hdv : (Slot.unit sec.shaft (st.put l v) (.mix l)).propagate svc t0 =
        .ok { t0 with mass := t0.mass + v * t0.props.stdDensity / 24 } := by
      simp only [Slot.unit, ProcUnit.propagate, put_self]
      unfold directMix Stream.withMass Stream.make
      rw [if_neg (not_lt.mpr hnn)]
    rw [hdv]
    dsimp only
    rw [m3 _ hnn]
    simp only [pure, Except.pure]
    rw [put_other _ _ _ _ hsh, m1, hstd]

/-- A compressor with enough flow does not raise the exception for surge. -/
theorem comp_error {svc : Service} {c : Compressor} (hg : GoodCompressor svc c) {n : ℚ} (hn : c.speed = some n) {t : Stream}
    (hf : c.minFlow n ≤ t.volRate) {e : PErr} (h : c.propagate t = .error e) : NotSurge e := by
  unfold Compressor.propagate at h
  split at h
  · cases h; trivial
  · unfold Compressor.getSpeed at h
    rw [hn] at h
    simp only [Bind.bind, Except.bind] at h
    rw [if_neg (not_lt.mpr hf)] at h
    split at h
    · cases h; trivial
    · exact hg.2 _ _ _ h

/-- A run through a first part of a section does not end with surge, if the compressors in it have enough flow. -/
theorem part_error {svc : Service} (hs : Physical svc) {sec : Sec Nat} (hi : Individual sec)
    (hg : ∀ c, .comp c ∈ sec.slots → GoodCompressor svc c) {s : Stream} {w : Settings Nat} {e : PErr} :
    ∀ {p q : List (Slot Nat)}, sec.slots = p ++ q → (∀ i, i < p.countP isComp → SafeAt svc sec w s i) →
      runUnits svc (p.map (Slot.unit sec.shaft w)) s = .error e → NotSurge e := by
  intro p
  induction p using List.reverseRecOn with
  | nil => intro q _ _ h; cases h
  | append_singleton p u ih =>
    intro q hq hsafe h
    rw [List.map_append, C40.runUnits_append] at h
    rcases bind_error h with h | ⟨t, ht, h⟩
    · refine ih (q := u :: q) (by rw [hq]; simp) (fun i hi' => hsafe i ?_) h
      rw [List.countP_append]; omega
    · simp only [List.map_cons, List.map_nil, runUnits] at h
      rcases bind_error h with h | ⟨t', -, h⟩
      · have hm : u ∈ sec.slots := by rw [hq]; simp
        cases u with
        | comp c =>
          have hbe : before sec.slots (p.countP isComp) = some (p, c) := by
            have := before_append_right p (.comp c :: q) 0
            rw [Nat.add_zero] at this
            rw [hq, List.append_assoc, List.singleton_append, this]
            simp [before]
          obtain ⟨c', t', h1, h2⟩ := hsafe (p.countP isComp) (by rw [List.countP_append]; simp [isComp])
          unfold Sec.runTo at h1
          rw [hbe] at h1
          dsimp only at h1
          rw [ht] at h1
          cases h1
          exact comp_error (c := { c with speed := some (w sec.shaft) }) (hg c hm) rfl h2 h
        | fixed v => exact unit_error hs (hi.plain _ hm v rfl).1 h
        | mix l => exact unit_error hs (fun c => by simp [Slot.unit]) h
        | split l => exact unit_error hs (fun c => by simp [Slot.unit]) h
        | choke l => exact unit_error hs (fun c => by simp [Slot.unit]) h
      · cases h

theorem before_split : ∀ {us : List (Slot Nat)} {i : Nat} {pre : List (Slot Nat)} {c : Compressor},
    before us i = some (pre, c) → ∃ d, us = pre ++ .comp c :: d ∧ pre.countP isComp = i := by
  intro us
  induction us with
  | nil => intro i pre c h; cases h
  | cons u us ih =>
    intro i pre c h
    have gen : ∀ i, isComp u = false → ((before us i).map fun r => (u :: r.1, r.2)) = some (pre, c) →
        ∃ d, u :: us = pre ++ .comp c :: d ∧ pre.countP isComp = i := by
      intro i hu h
      rw [Option.map_eq_some_iff] at h
      obtain ⟨⟨q, c'⟩, h1, h2⟩ := h
      cases h2
      obtain ⟨d, h3, h4⟩ := ih h1
      exact ⟨d, by rw [h3]; rfl, by rw [List.countP_cons_of_neg (by simp [hu])]; exact h4⟩
    cases u with
    | comp c' =>
      cases i with
      | zero => simp only [before, Option.some.injEq, Prod.mk.injEq] at h; obtain ⟨rfl, rfl⟩ := h; exact ⟨us, rfl, rfl⟩
      | succ i =>
        simp only [before] at h
        rw [Option.map_eq_some_iff] at h
        obtain ⟨⟨q, c''⟩, h1, h2⟩ := h
        cases h2
        obtain ⟨d, h3, h4⟩ := ih h1
        exact ⟨d, by rw [h3]; rfl, by rw [List.countP_cons_of_pos (by rfl), h4]⟩
    | fixed v => exact gen i rfl h
    | mix v => exact gen i rfl h
    | split v => exact gen i rfl h
    | choke v => exact gen i rfl h

/-- A run to a compressor does not end with surge, if the earlier compressors have enough flow. -/
theorem runTo_error {svc : Service} (hs : Physical svc) {sec : Sec Nat} (hi : Individual sec)
    (hg : ∀ c, .comp c ∈ sec.slots → GoodCompressor svc c) {s : Stream} {w : Settings Nat} {i : Nat}
    (hsafe : ∀ j, j < i → SafeAt svc sec w s j) {e : PErr} (h : sec.runTo svc w s i = .error e) : NotSurge e := by
  unfold Sec.runTo at h
  cases hb : before sec.slots i with
  | none => rw [hb] at h; cases h; trivial
  | some r =>
    obtain ⟨pre, c⟩ := r
    rw [hb] at h
    dsimp only at h
    obtain ⟨d, h1, h2⟩ := before_split hb
    rcases bind_error h with h | ⟨t, -, h⟩
    · exact part_error hs hi hg h1 (fun j hj => hsafe j (by omega)) h
    · cases h

theorem range_error {svc : Service} (hs : Physical svc) {sec : Sec Nat} (hi : Individual sec)
    (hg : ∀ c, .comp c ∈ sec.slots → GoodCompressor svc c) {s : Stream} {w : Settings Nat} {i : Nat}
    (hsafe : ∀ j, j < i → SafeAt svc sec w s j) {e : PErr} (h : sec.range svc w s i = .error e) : NotSurge e := by
  unfold Sec.range at h
  rcases bind_error h with h | ⟨⟨c, t⟩, -, h⟩
  · exact runTo_error hs hi hg hsafe h
  · unfold Compressor.recircRange Compressor.minStdRate Compressor.maxStdRate Compressor.getSpeed at h
    cases hc : c.speed with
    | none => dsimp only at h; rw [hc] at h; cases h; trivial
    | some n => dsimp only at h; rw [hc] at h; cases h

/-- A loop given at least the lower end of the range makes its compressor safe. -/
theorem step_safe {svc : Service} (hs : Physical svc) {sec : Sec Nat} (hi : Individual sec)
    (hg : ∀ c, .comp c ∈ sec.slots → GoodCompressor svc c) {s : Stream} (hgs : Good svc s) {st : Settings Nat}
    (hdry : DryLoops svc sec st s) {i l : Nat} (hl : sec.loops[i]? = some l) (hz : st l = 0) {b : Boundary}
    (hb : sec.range svc st s i = .ok b) {v : ℚ} (hv : b.min ≤ v) :
    ∃ c t, sec.runTo svc (st.put l v) s i = .ok (c, t) ∧ c.minFlow (st sec.shaft) + margin svc t ≤ t.volRate ∧
      0 < margin svc t ∧ 0 ≤ b.min ∧ (v = b.min → v = 0 ∨ c.minFlow (st sec.shaft) + margin svc t = t.volRate) := by
  obtain ⟨c, t, hc, hgt, hr, hrun⟩ := range_parts hs hi hg hgs hdry hl hz hb
  obtain ⟨r1, r2, r3⟩ := range_lower hs hc hgt hr
  refine ⟨c, _, hrun v (le_trans r1 hv), r2 v hv, (margin_pos hs hgt : 0 < margin svc t), r1, ?_⟩
  rintro rfl
  exact r3

/-! ## The sweep -/

/-- Positions in a rest of the loops. -/
theorem drop_cons {ls : List Nat} {i l : Nat} {rest : List Nat} (h : ls.drop i = l :: rest) :
    ls[i]? = some l ∧ ls.drop (i + 1) = rest ∧ i < ls.length := by
  have h1 : i < ls.length := by
    by_contra hc
    rw [List.drop_eq_nil_of_le (by omega)] at h
    cases h
  rw [List.drop_eq_getElem_cons h1] at h
  injection h with h2 h3
  exact ⟨by rw [List.getElem?_eq_getElem h1, h2], h3, h1⟩

theorem take_or_drop {ls : List Nat} (hn : ls.Nodup) {i k : Nat} (hk : k ∈ ls.take i) : k ∉ ls.drop i := by
  rw [← List.take_append_drop i ls, List.nodup_append] at hn
  exact fun h => hn.2.2 k hk k h rfl

/-- What a compressor's stream and the rate of its loop are after a sweep. -/
def Served (svc : Service) (sec : Sec Nat) (w : Settings Nat) (s : Stream) (lowest : Prop) (i : Nat) : Prop :=
  ∃ c t l, sec.loops[i]? = some l ∧ sec.runTo svc w s i = .ok (c, t) ∧ 0 < margin svc t ∧
    c.minFlow (w sec.shaft) + margin svc t ≤ t.volRate ∧ 0 ≤ w l ∧
    (lowest → w l = 0 ∨ c.minFlow (w sec.shaft) + margin svc t = t.volRate)

theorem Served.safe {svc : Service} {sec : Sec Nat} {w : Settings Nat} {s : Stream} {lowest : Prop} {i : Nat}
    (h : Served svc sec w s lowest i) : SafeAt svc sec w s i := by
  obtain ⟨c, t, l, -, h1, h2, h3, -⟩ := h
  exact ⟨c, t, h1, by linarith⟩

theorem Served.local {svc : Service} {sec : Sec Nat} (hi : Individual sec) {w w' : Settings Nat} {s : Stream} {lowest : Prop}
    {i : Nat} (h : ∀ k, k ∉ sec.loops ∨ k ∈ sec.loops.take (i + 1) → w k = w' k) (hs : Served svc sec w s lowest i) :
    Served svc sec w' s lowest i := by
  obtain ⟨c, t, l, h1, h2, h3, h4, h5, h6⟩ := hs
  have hl : w l = w' l := h l (.inr (by
    rw [List.mem_take_iff_getElem]
    obtain ⟨a, b⟩ := List.getElem?_eq_some_iff.mp h1
    exact ⟨i, by omega, b⟩))
  have hsh : w sec.shaft = w' sec.shaft := h _ (.inl hi.shaft)
  exact ⟨c, t, l, h1, by rw [← runTo_local hi svc s i h]; exact h2, h3, by rw [← hsh]; exact h4, by rw [← hl]; exact h5,
    by rw [← hsh, ← hl]; exact h6⟩

theorem SafeAt.local {svc : Service} {sec : Sec Nat} (hi : Individual sec) {w w' : Settings Nat} {s : Stream}
    {i : Nat} (h : ∀ k, k ∉ sec.loops ∨ k ∈ sec.loops.take (i + 1) → w k = w' k) (hs : SafeAt svc sec w s i) :
    SafeAt svc sec w' s i := by
  obtain ⟨c, t, h1, h2⟩ := hs
  exact ⟨c, t, by rw [← runTo_local hi svc s i h]; exact h1, by rw [← h _ (.inl hi.shaft)]; exact h2⟩

/-- The sweep over the loops: with rates at or above the lower ends of the ranges it makes every compressor safe, and it
does not end with surge. -/
theorem sweep_served {svc : Service} (hs : Physical svc) {sec : Sec Nat} (hi : Individual sec)
    (hg : ∀ c, .comp c ∈ sec.slots → GoodCompressor svc c) {s : Stream} (hgs : Good svc s) {pick : Boundary → ℚ}
    {base : Settings Nat} (hdry : ∀ w : Settings Nat, (∀ k, k ∉ sec.loops → w k = base k) → DryLoops svc sec w s)
    (hpick : ∀ (w : Settings Nat) i b, (∀ k, k ∉ sec.loops → w k = base k) → sec.range svc w s i = .ok b → b.min ≤ pick b) :
    ∀ (ls : List Nat) (i : Nat) (st : Settings Nat), sec.loops.drop i = ls → (∀ k, k ∉ sec.loops → st k = base k) →
      (∀ k ∈ ls, st k = 0) → (∀ j, j < i → SafeAt svc sec st s j) →
      (∀ e, (sweep svc sec s pick i ls st).1 = .error e → NotSurge e) ∧
      (∀ cs, (sweep svc sec s pick i ls st).1 = .ok cs → ∀ j, i ≤ j → j < sec.loops.length →
        Served svc sec (sweep svc sec s pick i ls st).2 s (∀ b, pick b = b.min) j) := by
  intro ls
  induction ls with
  | nil =>
    intro i st hd _ _ _
    refine ⟨fun e h => (by cases h), fun cs _ j h1 h2 => ?_⟩
    have := List.drop_eq_nil_iff.mp hd
    omega
  | cons l ls ih =>
    intro i st hd hst hz hsafe
    obtain ⟨d1, d2, d3⟩ := drop_cons hd
    have hlm : l ∈ sec.loops := List.mem_of_getElem? d1
    have hsh : sec.shaft ≠ l := fun e => hi.shaft (e ▸ hlm)
    have hnd : l ∉ ls := by
      have := (List.drop_sublist i sec.loops).nodup hi.nodup
      rw [hd] at this
      exact (List.nodup_cons.mp this).1
    unfold sweep
    cases hr : sec.range svc st s i with
    | error e =>
      refine ⟨?_, fun cs h => by cases h⟩
      intro e' h
      cases h
      exact range_error hs hi hg hsafe hr
    | ok b =>
      dsimp only
      obtain ⟨c, t, s1, s2, s3, s4, s5⟩ := step_safe hs hi hg hgs (hdry st hst) d1 (hz l (by simp)) hr (hpick st i b hst hr)
      have hput : ∀ k, k ∉ sec.loops → st.put l (pick b) k = base k := fun k hk => by
        rw [put_other _ _ _ _ (show k ≠ l from fun e => hk (e ▸ hlm))]; exact hst k hk
      have hserved : Served svc sec (st.put l (pick b)) s (∀ b, pick b = b.min) i := by
        refine ⟨c, t, l, d1, s1, s3, by rw [put_other _ _ _ _ hsh]; exact s2, ?_, ?_⟩
        · rw [put_self]; exact le_trans s4 (hpick st i b hst hr)
        · intro hp
          rw [put_self, put_other _ _ _ _ hsh]
          exact s5 (hp b)
      have hbefore : ∀ j, j < i + 1 → SafeAt svc sec (st.put l (pick b)) s j := by
        intro j hj
        by_cases he : j = i
        · subst he; exact hserved.safe
        · refine (hsafe j (by omega)).local hi fun k hk => (put_other _ _ _ _ ?_).symm
          rintro rfl
          rcases hk with hk | hk
          · exact hk hlm
          · refine take_or_drop hi.nodup (i := i) (k := k) ?_ (by rw [hd]; simp)
            exact (List.take_prefix_take_left (by omega)).subset hk
      obtain ⟨i1, i2⟩ := ih (i + 1) (st.put l (pick b)) d2 hput
        (fun k hk => by rw [put_other _ _ _ _ (show k ≠ l from fun e => hnd (e ▸ hk))]; exact hz k (by simp [hk])) hbefore
      have hoth := fun k hk => C73.sweep_other svc sec s pick k ls (i + 1) (st.put l (pick b)) hk
      generalize sweep svc sec s pick (i + 1) ls (st.put l (pick b)) = a at i1 i2 hoth ⊢
      obtain ⟨a1, a2⟩ := a
      cases a1 with
      | error e => exact ⟨fun e' h => i1 e' h, fun cs h => by cases h⟩
      | ok cs =>
        refine ⟨fun e' h => (by cases h), fun cs' _ j h1 h2 => ?_⟩
        by_cases he : j = i
        · subst he
          refine hserved.local hi fun k hk => (hoth k ?_).symm
          rcases hk with hk | hk
          · exact fun hm => hk (by rw [← d2] at hm; exact List.mem_of_mem_drop hm)
          · rw [← d2]; exact take_or_drop hi.nodup hk
        · exact i2 cs rfl j (by omega) h2

/-- The settings after the configurations of a sweep are those the sweep left. -/
theorem sweep_settings {svc : Service} {sec : Sec Nat} {s : Stream} {pick : Boundary → ℚ} {st w0 : Settings Nat}
    {cs : List (Conf Nat)} (h : (sweep svc sec s pick 0 sec.loops st).1 = .ok cs) (hw : ∀ k, k ∉ sec.loops → w0 k = st k) :
    applyAll cs w0 = (sweep svc sec s pick 0 sec.loops st).2 := by
  obtain ⟨h1, h2⟩ := C73.sweep_handlers svc sec s pick sec.loops 0 st cs h
  rw [h2]
  funext k
  by_cases hk : k ∈ sec.loops
  · exact C73.applyAll_mem _ _ _ _ (by rw [h1]; exact hk)
  · rw [C73.applyAll_not_mem _ _ _ (by rw [h1]; exact hk), C73.applyAll_not_mem _ _ _ (by rw [h1]; exact hk), hw k hk]

/-- A sweep from loops set to 0. -/
theorem sweep_all {svc : Service} (hs : Physical svc) {sec : Sec Nat} (hi : Individual sec)
    (hg : ∀ c, .comp c ∈ sec.slots → GoodCompressor svc c) {s : Stream} (hgs : Good svc s) {pick : Boundary → ℚ}
    {st : Settings Nat} (hdry : ∀ w : Settings Nat, (∀ k, k ∉ sec.loops → w k = st k) → DryLoops svc sec w s)
    (hpick : ∀ (w : Settings Nat) i b, (∀ k, k ∉ sec.loops → w k = st k) → sec.range svc w s i = .ok b → b.min ≤ pick b)
    (hz : ∀ k ∈ sec.loops, st k = 0) :
    (∀ e, (sweep svc sec s pick 0 sec.loops st).1 = .error e → NotSurge e) ∧
    (∀ cs, (sweep svc sec s pick 0 sec.loops st).1 = .ok cs → ∀ w0 : Settings Nat, (∀ k, k ∉ sec.loops → w0 k = st k) →
      (∀ i, i < sec.loops.length → Served svc sec (applyAll cs w0) s (∀ b, pick b = b.min) i) ∧
      (∀ e, sec.run svc (applyAll cs w0) s = .error e → NotSurge e)) := by
  obtain ⟨h1, h2⟩ := sweep_served hs hi hg hgs hdry hpick sec.loops 0 st (by simp) (fun _ _ => rfl) hz (by simp)
  refine ⟨h1, fun cs hcs w0 hw => ?_⟩
  rw [sweep_settings hcs hw]
  refine ⟨fun i hl => h2 cs hcs i (by omega) hl, fun e he => ?_⟩
  refine part_error hs hi hg (p := sec.slots) (q := []) (by simp) (fun i hlt => ?_) he
  rw [hi.count] at hlt
  exact (h2 cs hcs i (by omega) hlt).safe

/-! ## Anti-surge -/

/-- **Safe.** Anti-surge with individual loops does not end with surge itself. What it returns, applied to settings with
the same speed and choke, gives every compressor more than its minimum flow; no loop has more than needed, that is, each
rate is 0 or the flow is the minimum flow plus the margin. A run of the section then does not end with surge. -/
theorem C77_safe {svc : Service} (hs : Physical svc) {sec : Sec Nat} (hi : Individual sec)
    (hg : ∀ c, .comp c ∈ sec.slots → GoodCompressor svc c) {s : Stream} (hgs : Good svc s) {st : Settings Nat}
    (hdry : ∀ w : Settings Nat, (∀ k, k ∉ sec.loops → w k = st k) → DryLoops svc sec w s) :
    (∀ e st', individualAntiSurge svc sec s st = (.error e, st') → NotSurge e) ∧
    ∀ sol st', individualAntiSurge svc sec s st = (.ok sol, st') → sol.failure = none ∧
      sol.configuration.map (·.handler) = sec.loops ∧
      ∀ w0 : Settings Nat, (∀ k, k ∉ sec.loops → w0 k = st k) →
        (∀ i l, sec.loops[i]? = some l → ∃ c t, sec.runTo svc (applyAll sol.configuration w0) s i = .ok (c, t) ∧
          c.minFlow (st sec.shaft) < t.volRate ∧ 0 ≤ applyAll sol.configuration w0 l ∧
          (applyAll sol.configuration w0 l = 0 ∨ t.volRate = c.minFlow (st sec.shaft) + margin svc t)) ∧
        ∀ e, sec.run svc (applyAll sol.configuration w0) s = .error e → NotSurge e := by
  have hr : ∀ k, k ∉ sec.loops → resetAll sec.loops st k = st k := fun k hk => C73.resetAll_not_mem _ _ _ hk
  obtain ⟨h1, h2⟩ := sweep_all hs hi hg hgs (pick := (·.min)) (st := resetAll sec.loops st)
    (fun w hw => hdry w fun k hk => by rw [hw k hk, hr k hk]) (fun _ _ _ _ _ => le_refl _)
    (fun k hk => C73.resetAll_mem _ _ _ hk)
  have h3 := C73.sweep_handlers svc sec s (·.min) sec.loops 0 (resetAll sec.loops st)
  unfold individualAntiSurge
  generalize sweep svc sec s (·.min) 0 sec.loops (resetAll sec.loops st) = a at h1 h2 h3 ⊢
  obtain ⟨a1, a2⟩ := a
  cases a1 with
  | error e => exact ⟨fun e' st' h => by cases h; exact h1 e rfl, fun sol st' h => by cases h⟩
  | ok cs =>
    refine ⟨fun e' st' h => (by cases h), fun sol st' h => ?_⟩
    cases h
    refine ⟨rfl, (h3 cs rfl).1, fun w0 hw => ?_⟩
    obtain ⟨g1, g2⟩ := h2 cs rfl w0 fun k hk => by rw [hw k hk, hr k hk]
    refine ⟨fun i l hl => ?_, g2⟩
    obtain ⟨c, t, l', k1, k2, k3, k4, k5, k6⟩ := g1 i (List.getElem?_eq_some_iff.mp hl).1
    rw [hl] at k1
    cases k1
    have hsh : applyAll cs w0 sec.shaft = st sec.shaft := by
      rw [C73.applyAll_not_mem _ _ _ (by rw [(h3 cs rfl).1]; exact hi.shaft)]
      exact hw _ hi.shaft
    rw [hsh] at k4 k6
    refine ⟨c, t, k2, by linarith, k5, ?_⟩
    rcases k6 fun _ => rfl with k6 | k6
    · exact .inl k6
    · exact .inr k6.symm

/-! ## The solver -/

/-- A root finder raises nothing about surge, unless the function does so in the bracket. -/
def RootRaises (root : RootFinder) : Prop :=
  ∀ b g e, root b g = .error e → NotSurge e ∨ ∃ x, b.min ≤ x ∧ x ≤ b.max ∧ g x = .error e

/-- Every compressor can take some recirculation: the lower ends of the ranges are not above the upper ends. -/
def Roomy (svc : Service) (sec : Sec Nat) (s : Stream) : Prop :=
  ∀ (w : Settings Nat) i b, sec.range svc w s i = .ok b → b.min ≤ b.max

theorem bisect_error {tol : ℚ} {probe : ℚ → Except PErr Search.Probe} {e : PErr} : ∀ {n : Nat} {s : Search.BisectState},
    bisectLoopE tol probe n s = .error e → ∃ x, probe x = .error e := by
  intro n
  induction n with
  | zero => intro s h; cases h
  | succ n ih =>
    intro s h
    unfold bisectLoopE at h
    cases hp : probe ((s.lo + s.hi) / 2) with
    | error e' => rw [hp] at h; cases h; exact ⟨_, hp⟩
    | ok r =>
      rw [hp] at h
      dsimp only at h
      split at h
      · cases h
      · exact ih h

theorem search_error {tol : ℚ} {n : Nat} {b : Boundary} {probe : ℚ → Except PErr Search.Probe} {e : PErr}
    (h : searchE tol n b probe = .error e) : e = .notConverged ∨ ∃ x, probe x = .error e := by
  unfold searchE at h
  rcases bind_error h with h | ⟨a, -, h⟩
  · exact .inr (bisect_error h)
  · split at h
    · cases h; exact .inl rfl
    · cases h

theorem recircProbe_error {m : Bool} {f : Sim} {x : ℚ} {e : PErr} (h : recircProbe m f x = .error e) : NotSurge e := by
  unfold recircProbe at h
  cases hx : f x with
  | ok p => rw [hx] at h; cases h
  | error e' =>
    rw [hx] at h
    cases e' <;> first | (cases h; done) | (cases h; trivial)

theorem map_error {f : Sim} {v x : ℚ} {e : PErr} (h : (f x).map (· - v) = .error e) : f x = .error e := by
  cases hf : f x with
  | ok p => rw [hf] at h; cases h
  | error e' => rw [hf] at h; cases h; rfl

/-- A search result that is not about surge. -/
def Quiet {α : Type} (failure : α → Option Failure) (x : Except PErr α) : Prop :=
  match x with
  | .ok a => ∀ p q, failure a ≠ some (.surge p q)
  | .error e => NotSurge e

theorem quiet_of {α : Type} {failure : α → Option Failure} {x : Except PErr α} (h1 : ∀ e, x = .error e → NotSurge e)
    (h2 : ∀ a, x = .ok a → ∀ p q, failure a ≠ some (.surge p q)) : Quiet failure x := by
  cases x with
  | ok a => exact h2 a rfl
  | error e => exact h1 e rfl

theorem quiet_bind {α β : Type} {failure : β → Option Failure} {x : Except PErr α} {f : α → Except PErr β}
    (h1 : ∀ e, x = .error e → NotSurge e) (h2 : ∀ a, x = .ok a → Quiet failure (f a)) : Quiet failure (x >>= f) := by
  cases x with
  | ok a => exact h2 a rfl
  | error e => exact h1 e rfl

theorem minSpeed_error {tol : ℚ} {n : Nat} {b : Boundary} {f : Sim} (hf : ∀ x e, f x = .error e → NotSurge e) {e : PErr}
    (h : minSpeed tol n b f = .error e) : NotSurge e := by
  have hup : ∀ e, (do let x ← searchE tol n b (speedProbe f); let p ← f x; return (x, p) : Except PErr (ℚ × ℚ)) = .error e →
      NotSurge e := by
    intro e h
    rcases bind_error h with h | ⟨x, -, h⟩
    · rcases C55.speed_search_error _ _ _ _ _ h with rfl | ⟨⟨x, hx⟩, -⟩
      · trivial
      · exact hf _ _ hx
    · rcases bind_error h with h | ⟨x, -, h⟩
      · exact hf _ _ h
      · cases h
  unfold minSpeed at h
  dsimp only at h
  cases hm : f b.min with
  | ok p => rw [hm] at h; cases h
  | error e' =>
    rw [hm] at h
    cases e' <;> first | exact hup _ h | (cases h; exact hf _ _ hm)

theorem below_quiet {tol : ℚ} {n : Nat} {root : RootFinder} (hr : RootRaises root) {b : Boundary} {target : ℚ} {f : Sim}
    (hf : ∀ x e, f x = .error e → NotSurge e) (pMax : ℚ) :
    Quiet Finding.failure (speedBelowMax tol n root b target f pMax) := by
  unfold speedBelowMax
  split
  · intro p q; simp
  · cases hm : minSpeed tol n b f with
    | error e =>
      have := minSpeed_error hf hm
      cases e <;> first | exact this.elim | (intro p q; simp) | exact this
    | ok r =>
      obtain ⟨lo, pLo⟩ := r
      dsimp only
      split
      · intro p q; simp
      · split
        · refine quiet_bind (fun e he => ?_) fun x _ => by intro p q; simp
          rcases hr _ _ _ he with h | ⟨x, -, -, h⟩
          · exact h
          · exact hf _ _ (map_error h)
        · trivial

theorem findSpeed_quiet {tol : ℚ} {n : Nat} {root : RootFinder} (hr : RootRaises root) {target : ℚ} {f : Sim}
    (hf : ∀ x e, f x = .error e → NotSurge e) : ∀ (fuel : Nat) (b : Boundary),
    Quiet Finding.failure (findSpeed tol n root target f fuel b) := by
  intro fuel
  induction fuel with
  | zero => intro b; trivial
  | succ fuel ih =>
    intro b
    unfold findSpeed
    cases hm : f b.max with
    | ok p => exact below_quiet hr hf p
    | error e =>
      have := hf _ _ hm
      cases e with
      | surge p q => exact this.elim
      | thermo =>
        dsimp only
        refine quiet_bind (fun e he => ?_) fun o _ => ?_
        · have heos : ∀ x e, eosOk f x = .error e → NotSurge e := by
            intro x e he
            unfold eosOk at he
            cases hx : f x with
            | ok p => rw [hx] at he; cases he
            | error e' =>
              have := hf _ _ hx
              rw [hx] at he
              cases e' <;> first | cases he; done | (cases he; exact this)
          unfold highestTrueE at he
          rcases bind_error he with he | ⟨near, -, he⟩
          · exact heos _ _ he
          · split at he
            · cases he
            · rcases bind_error he with he | ⟨far, -, he⟩
              · exact heos _ _ he
              · split at he
                · cases he
                · rcases bind_error he with he | ⟨s, -, he⟩
                  · obtain ⟨x, hx⟩ := bisect_error he
                    cases hex : eosOk f x with
                    | ok y => rw [hex] at hx; cases hx
                    | error e' => rw [hex] at hx; cases hx; exact heos _ _ hex
                  · split at he <;> cases he
        · cases o with
          | none => intro p q; simp
          | some v => exact ih _
      | _ => first | (intro p q; simp) | exact this

theorem chokeLoop_error {f : Sim} (hf : ∀ x e, f x = .error e → NotSurge e) {e : PErr} : ∀ {n : Nat} {lo hi : ℚ} {e0 : PErr},
    chokeLoop f n lo hi e0 = .error e → NotSurge e := by
  intro n
  induction n with
  | zero => intro lo hi e0 h; cases h
  | succ n ih =>
    intro lo hi e0 h
    unfold chokeLoop at h
    split at h
    · cases hm : f ((lo + hi) / 2) with
      | ok p => rw [hm] at h; exact ih h
      | error e' =>
        rw [hm] at h
        dsimp only at h
        split at h
        · exact ih h
        · cases h; exact hf _ _ hm
    · cases h

theorem chokeLoop_ok {f : Sim} (hf : ∀ x e, f x = .error e → NotSurge e) {r : ℚ × ℚ × PErr} :
    ∀ {n : Nat} {lo hi : ℚ} {e0 : PErr}, NotSurge e0 → chokeLoop f n lo hi e0 = .ok r → NotSurge r.2.2 := by
  intro n
  induction n with
  | zero => intro lo hi e0 h0 h; cases h; exact h0
  | succ n ih =>
    intro lo hi e0 h0 h
    unfold chokeLoop at h
    split at h
    · cases hm : f ((lo + hi) / 2) with
      | ok p => rw [hm] at h; exact ih h0 h
      | error e' =>
        rw [hm] at h
        dsimp only at h
        split at h
        · exact ih (hf _ _ hm) h
        · cases h
    · cases h; exact h0

theorem findUpstream_quiet {root : RootFinder} (hr : RootRaises root) {target : ℚ} {b : Boundary} {f : Sim}
    (hf : ∀ x e, f x = .error e → NotSurge e) : Quiet Finding.failure (findUpstream root target b f) := by
  unfold findUpstream
  refine quiet_bind (fun e he => hf _ _ he) fun p0 _ => ?_
  split
  · refine quiet_bind (fun e he => ?_) fun r hsm => ?_
    · unfold chokeSearchMax at he
      cases hm : f b.max with
      | ok p => rw [hm] at he; cases he
      | error e' =>
        rw [hm] at he
        dsimp only at he
        split at he
        · rcases bind_error he with he | ⟨r, -, he⟩
          · exact chokeLoop_error hf he
          · cases he
        · cases he; exact hf _ _ hm
    · obtain ⟨m, cap⟩ := r
      dsimp only
      refine quiet_bind (fun e he => hf _ _ he) fun p _ => ?_
      split
      · cases cap with
        | none => intro p q; simp
        | some e =>
          have hns : NotSurge e := by
            unfold chokeSearchMax at hsm
            cases hm : f b.max with
            | ok p => rw [hm] at hsm; cases hsm
            | error e' =>
              rw [hm] at hsm
              dsimp only at hsm
              split at hsm
              · obtain ⟨r, h1, h2⟩ := C74.bind_ok hsm
                cases h2
                exact chokeLoop_ok hf (hf _ _ hm) h1
              · cases hsm
          cases e <;> first | exact hns.elim | exact hns | (intro p q; simp)
      · refine quiet_bind (fun e he => ?_) fun x _ => by intro p q; simp
        rcases hr _ _ _ he with h | ⟨x, -, -, h⟩
        · exact h
        · exact hf _ _ (map_error h)
  · trivial

theorem findRecirc_quiet {tol : ℚ} {n : Nat} {root : RootFinder} (hr : RootRaises root) {b : Boundary} (hb : b.min ≤ b.max)
    {value ptol : ℚ} {f : Sim} (hf : ∀ x e, b.min ≤ x → f x = .error e → NotSurge e) :
    Quiet Finding.failure (findRecirc tol n root b (some (value, ptol)) f) := by
  unfold findRecirc
  have hmin : (∀ e, recircMin tol n b f = .error e → NotSurge e) ∧ ∀ x, recircMin tol n b f = .ok x → x = b.min := by
    unfold recircMin
    cases hm : f b.min with
    | ok p => exact ⟨fun e h => (by cases h), fun x h => by cases h; rfl⟩
    | error e =>
      have := hf _ _ (le_refl _) hm
      cases e <;> first | exact this.elim | exact ⟨fun e h => (by cases h; trivial), fun x h => by cases h⟩
  cases hm : recircMin tol n b f with
  | error e =>
    have := hmin.1 _ hm
    cases e <;> first | exact this.elim | (intro p q; simp) | exact this
  | ok lo =>
    obtain rfl := hmin.2 _ hm
    dsimp only
    unfold recircTarget
    refine quiet_bind (fun e he => ?_) fun hi hhi => ?_
    · unfold recircMax at he
      cases hx : f b.max with
      | ok p => rw [hx] at he; cases he
      | error e' =>
        have h0 := hf _ _ hb hx
        rw [hx] at he
        cases e' with
        | stonewall p q =>
          rcases search_error he with rfl | ⟨x, h⟩
          · trivial
          · exact recircProbe_error h
        | _ => cases he; exact h0
    · have hge : b.min ≤ hi := by
        unfold recircMax at hhi
        cases hx : f b.max with
        | ok p => rw [hx] at hhi; cases hhi; exact hb
        | error e' =>
          rw [hx] at hhi
          cases e' with
          | stonewall p q => exact ((C27.C27_search tol n b.min b.max _ hb).1 hi (BisectE.searchE_ok tol n b _ hi hhi)).1
          | _ => cases hhi
      refine quiet_bind (fun e he => hf _ _ (le_refl _) he) fun pLo _ => ?_
      split
      · intro p q; simp
      · split
        · intro p q; simp
        · refine quiet_bind (fun e he => hf _ _ hge he) fun pHi _ => ?_
          split
          · intro p q; simp
          · split
            · intro p q; simp
            · refine quiet_bind (fun e he => ?_) fun x _ => by intro p q; simp
              rcases hr _ _ _ he with h | ⟨x, h1, -, h⟩
              · exact h
              · exact hf _ _ h1 (map_error h)

/-- A solution or exception that is not about surge. -/
def Calm (x : Except PErr (Sol Nat)) : Prop :=
  match x with
  | .ok sol => ∀ p q, sol.failure ≠ some (.finding (.surge p q))
  | .error e => NotSurge e

theorem antiSurge_eq {sec : Sec Nat} (hcon : ∀ l, sec.control ≠ .commonAsv l) (svc : Service) (roots : Roots)
    (r : Settings Nat) (s : Stream) (st : Settings Nat) :
    sec.antiSurge svc roots r s st = individualAntiSurge svc sec s st := by
  unfold Sec.antiSurge
  cases hc : sec.control with
  | commonAsv l => exact absurd hc (hcon l)
  | _ => rfl

theorem surge_eq {sec : Sec Nat} (hcon : ∀ l, sec.control ≠ .commonAsv l) : sec.surgeHandlers = sec.loops := by
  unfold Sec.surgeHandlers
  cases hc : sec.control with
  | commonAsv l => exact absurd hc (hcon l)
  | _ => rfl

theorem pressure_error {svc : Service} {sec : Sec Nat} {w : Settings Nat} {s : Stream} {e : PErr}
    (h : sec.pressure svc w s = .error e) : sec.run svc w s = .error e := by
  unfold Sec.pressure at h
  cases hr : sec.run svc w s with
  | ok o => rw [hr] at h; cases h
  | error e' => rw [hr] at h; cases h; rfl

theorem runTo_comp {svc : Service} {sec : Sec Nat} {w : Settings Nat} {s t : Stream} {i : Nat} {c : Compressor}
    (h : sec.runTo svc w s i = .ok (c, t)) :
    ∃ c0, .comp c0 ∈ sec.slots ∧ c = { c0 with speed := some (w sec.shaft) } := by
  unfold Sec.runTo at h
  cases hb : before sec.slots i with
  | none => rw [hb] at h; cases h
  | some r =>
    obtain ⟨pre, c0⟩ := r
    rw [hb] at h
    dsimp only at h
    obtain ⟨t', -, h⟩ := C74.bind_ok h
    cases h
    obtain ⟨d, h1, -⟩ := before_split hb
    exact ⟨c0, by rw [h1]; simp, rfl⟩

/-- A stage that can be run is not in surge. -/
theorem stage_safe {svc : Service} {sec : Sec Nat} {w : Settings Nat} {s : Stream} {i : Nat} {p : ℚ}
    (h : sec.stage svc w s i = .ok p) : SafeAt svc sec w s i := by
  unfold Sec.stage at h
  obtain ⟨⟨c, t⟩, h1, h⟩ := C74.bind_ok h
  obtain ⟨o, h2, -⟩ := C74.bind_ok h
  obtain ⟨c0, -, rfl⟩ := runTo_comp h1
  refine ⟨_, t, h1, ?_⟩
  unfold Compressor.propagate at h2
  split at h2
  · cases h2
  · obtain ⟨n, hn, h2⟩ := C74.bind_ok h2
    cases hn
    split at h2
    · cases h2
    · rename_i h3
      exact not_lt.mp h3

/-- What is assumed of a section, the fluid and the stream. -/
structure Setup (svc : Service) (sec : Sec Nat) (s : Stream) : Prop where
  physical : Physical svc
  individual : Individual sec
  compressors : ∀ c, .comp c ∈ sec.slots → GoodCompressor svc c
  stream : Good svc s
  dry : ∀ w : Settings Nat, DryLoops svc sec w s
  control : ∀ l, sec.control ≠ .commonAsv l

variable {env : Env Nat} {sec : Sec Nat} {s : Stream}

theorem Setup.surge (h : Setup env.svc sec s) (st : Settings Nat) :
    (∀ e st', individualAntiSurge env.svc sec s st = (.error e, st') → NotSurge e) ∧
    ∀ sol st', individualAntiSurge env.svc sec s st = (.ok sol, st') → sol.failure = none ∧
      sol.configuration.map (·.handler) = sec.loops ∧
      ∀ w0 : Settings Nat, (∀ k, k ∉ sec.loops → w0 k = st k) →
        ∀ e, sec.run env.svc (applyAll sol.configuration w0) s = .error e → NotSurge e := by
  obtain ⟨h1, h2⟩ := C77_safe h.physical h.individual h.compressors h.stream (st := st) (fun w _ => h.dry w)
  exact ⟨h1, fun sol st' hs => ⟨(h2 sol st' hs).1, (h2 sol st' hs).2.1, fun w0 hw => ((h2 sol st' hs).2.2 w0 hw).2⟩⟩

theorem Setup.speed (h : Setup env.svc sec s) (st : Settings Nat) (x : ℚ) (e : PErr)
    (he : (speedFunc env sec s st x).1 = .error e) : NotSurge e := by
  unfold speedFunc at he
  dsimp only at he
  rw [antiSurge_eq h.control, surge_eq h.control] at he
  generalize hst : (resetAll sec.loops st).put sec.shaft x = st1 at he
  cases hp : sec.pressure env.svc st1 s with
  | ok p => rw [hp] at he; cases he
  | error e' =>
    rw [hp] at he
    cases e' with
    | surge p q =>
      dsimp only at he
      obtain ⟨h1, h2⟩ := h.surge st1
      have hoth := C73.individual_other env.svc sec s st1
      generalize individualAntiSurge env.svc sec s st1 = a at he h1 h2 hoth
      obtain ⟨a1, a2⟩ := a
      cases a1 with
      | error e' => cases he; exact h1 _ _ rfl
      | ok sol => exact (h2 sol a2 rfl).2.2 a2 (fun k hk => hoth k hk) e (pressure_error he)
    | _ => cases he; trivial

theorem Setup.choke (h : Setup env.svc sec s) (c : Nat) (st : Settings Nat) (x : ℚ) :
    (∀ e, (chokeFunc env.svc env.roots env.remains sec c s st x).1 = .error e → NotSurge e) ∧
    (∀ e, (chokeFunc env.svc env.roots env.remains sec c s st x).2.1 = .error e → NotSurge e) := by
  unfold chokeFunc
  rw [antiSurge_eq h.control]
  obtain ⟨h1, h2⟩ := h.surge (st.put c x)
  have hoth := C73.individual_other env.svc sec s (st.put c x)
  generalize individualAntiSurge env.svc sec s (st.put c x) = a at h1 h2 hoth
  obtain ⟨a1, a2⟩ := a
  cases a1 with
  | error e' =>
    dsimp only
    exact ⟨fun e he => by cases he; exact h1 _ _ rfl, fun e he => by cases he; exact h1 _ _ rfl⟩
  | ok sol =>
    dsimp only
    exact ⟨fun e he => (h2 sol a2 rfl).2.2 a2 (fun k hk => hoth k hk) e (pressure_error he), fun e he => by cases he⟩

theorem Setup.upstream (h : Setup env.svc sec s) (hr : RootRaises env.roots.find) (c : Nat) (value : ℚ) (st : Settings Nat) :
    Calm (controlUpstream env.svc env.roots env.remains sec c value s st).1 := by
  unfold controlUpstream
  have hq := findUpstream_quiet hr (target := value) (b := upstreamBound s)
    (f := fun x => (chokeFunc env.svc env.roots env.remains sec c s st x).1) fun x e he => (h.choke c st x).1 e he
  generalize findUpstream env.roots.find value (upstreamBound s)
    (fun x => (chokeFunc env.svc env.roots env.remains sec c s st x).1) = a at hq
  cases a with
  | error e => exact hq
  | ok fd =>
    dsimp only
    have hc := (h.choke c st (upstreamLast env.roots value (upstreamBound s)
      (fun x => (chokeFunc env.svc env.roots env.remains sec c s st x).1) fd)).2
    generalize chokeFunc env.svc env.roots env.remains sec c s st (upstreamLast env.roots value (upstreamBound s)
      (fun x => (chokeFunc env.svc env.roots env.remains sec c s st x).1) fd) = d at hc
    obtain ⟨d1, d2, d3⟩ := d
    cases d2 with
    | error e => exact hc e rfl
    | ok cs =>
      intro p q hf
      dsimp only at hf
      rw [Option.map_eq_some_iff] at hf
      obtain ⟨y, h1, h2⟩ := hf
      cases h2
      exact hq p q h1

theorem downstream_calm {c : Nat} {value tol : ℚ} {w : Settings Nat} {o : Stream} (hrun : sec.run env.svc w s = .ok o)
    (hc : w c = 0) : Calm (controlDownstream env.svc sec c value tol s w).1 := by
  have hput : w.put c 0 = w := by
    funext k
    by_cases hk : k = c
    · rw [hk, put_self, hc]
    · exact put_other _ _ _ _ hk
  have hp : sec.pressure env.svc (w.put c 0) s = .ok o.props.pressure := by
    unfold Sec.pressure; rw [hput, hrun]; rfl
  have hq : Quiet Finding.failure (applyDownstream value tol fun x => sec.pressure env.svc (w.put c x) s) := by
    unfold applyDownstream
    refine quiet_bind (fun e he => ?_) fun p _ => ?_
    · cases hp.symm.trans he
    · split
      · split
        · intro p q; simp
        · intro p q; simp
      · unfold findDownstream
        refine quiet_bind (fun e he => ?_) fun p _ => ?_
        · cases hp.symm.trans he
        · split <;> (intro p q; simp)
  unfold controlDownstream
  generalize (applyDownstream value tol fun x => sec.pressure env.svc (w.put c x) s) = a at hq
  cases a with
  | error e => exact hq
  | ok fd =>
    intro p q hf
    dsimp only at hf
    rw [Option.map_eq_some_iff] at hf
    obtain ⟨y, h1, h2⟩ := hf
    cases h2
    exact hq p q h1

theorem Setup.least (h : Setup env.svc sec s) (hroom : Roomy env.svc sec s) {st : Settings Nat}
    (hz : ∀ k ∈ sec.loops, st k = 0) :
    (∀ e, (minAchievable env.svc sec s st).1 = .error e → NotSurge e) ∧
    ∀ r, (minAchievable env.svc sec s st).1 = .ok r → ∀ k ∈ sec.loops, (minAchievable env.svc sec s st).2 k = 0 := by
  obtain ⟨h1, h2⟩ := sweep_all h.physical h.individual h.compressors h.stream (pick := (·.max)) (st := st)
    (fun w _ => h.dry w) (fun w i b _ hb => hroom w i b hb) hz
  have h3 := C73.sweep_handlers env.svc sec s (·.max) sec.loops 0 st
  unfold minAchievable
  generalize sweep env.svc sec s (·.max) 0 sec.loops st = a at h1 h2 h3
  obtain ⟨a1, a2⟩ := a
  cases a1 with
  | error e => exact ⟨fun e he => by cases he; exact h1 _ rfl, fun r hr => by cases hr⟩
  | ok cs =>
    dsimp only
    obtain ⟨-, h4⟩ := h3 cs rfl
    dsimp only at h4
    cases hp : sec.pressure env.svc a2 s with
    | error e =>
      refine ⟨fun e' he => ?_, fun r hr => by cases hr⟩
      cases he
      rw [h4] at hp
      exact (h2 cs rfl st fun _ _ => rfl).2 e (pressure_error hp)
    | ok p => exact ⟨fun e he => (by cases he), fun r _ k hk => C73.resetAll_mem _ _ _ hk⟩

theorem Setup.fraction (h : Setup env.svc sec s) (hroom : Roomy env.svc sec s) (st : Settings Nat) {x : ℚ} (hx : 0 ≤ x) :
    (∀ e, (fromFraction env.svc sec s st x).1 = .error e → NotSurge e) ∧
    ∀ cs, (fromFraction env.svc sec s st x).1 = .ok cs →
      ∀ e, sec.run env.svc (applyAll cs (fromFraction env.svc sec s st x).2) s = .error e → NotSurge e := by
  obtain ⟨h1, h2⟩ := sweep_all h.physical h.individual h.compressors h.stream (pick := atFraction x)
    (st := resetAll sec.loops st) (fun w _ => h.dry w) (fun w i b _ hb => by
      have h0 := mul_nonneg hx (sub_nonneg.mpr (hroom w i b hb))
      unfold atFraction
      linarith) (fun k hk => C73.resetAll_mem _ _ _ hk)
  have h3 := fun k hk => C73.sweep_other env.svc sec s (atFraction x) k sec.loops 0 (resetAll sec.loops st) hk
  unfold fromFraction
  exact ⟨h1, fun cs hcs => (h2 cs hcs _ h3).2⟩

theorem Setup.rate (h : Setup env.svc sec s) (hroom : Roomy env.svc sec s) (hr : RootRaises env.roots.find) {ε : ℚ}
    (hw : RootWithin env.roots.find ε) (value : ℚ) (st : Settings Nat) :
    Calm (controlRate env.svc env.roots env.remains sec value s st).1 := by
  unfold controlRate
  obtain ⟨h1, -⟩ := h.least hroom (st := resetAll sec.loops st) fun k hk => C73.resetAll_mem _ _ _ hk
  generalize minAchievable env.svc sec s (resetAll sec.loops st) = a at h1
  obtain ⟨a1, a2⟩ := a
  cases a1 with
  | error e => exact h1 e rfl
  | ok r =>
    obtain ⟨cs, p⟩ := r
    dsimp only
    split
    · intro p q; simp
    · cases hf : env.roots.find ⟨0, 1⟩ (fun x => (outletAt env.svc sec s a2 x).map (· - value)) with
      | error e =>
        dsimp only
        rcases hr _ _ _ hf with hf | ⟨x, hx, -, hf⟩
        · exact hf
        · have hf := map_error hf
          obtain ⟨f1, f2⟩ := h.fraction hroom a2 (x := x) hx
          unfold outletAt at hf
          generalize fromFraction env.svc sec s a2 x = d at hf f1 f2
          obtain ⟨d1, d2⟩ := d
          cases d1 with
          | error e' => cases hf; exact f1 _ rfl
          | ok cs => exact f2 cs rfl e (pressure_error hf)
      | ok x =>
        dsimp only
        obtain ⟨f1, -⟩ := h.fraction hroom a2 (x := x) (hw _ _ _ hf).1
        generalize fromFraction env.svc sec s a2 x = d at f1
        obtain ⟨d1, d2⟩ := d
        cases d1 with
        | error e => exact f1 e rfl
        | ok cs => intro p q; simp

theorem Setup.stage_error (h : Setup env.svc sec s) {st : Settings Nat} {i l : Nat} (hl : sec.loops[i]? = some l)
    (hz : st l = 0) {b : Boundary} (hb : sec.range env.svc st s i = .ok b) {x : ℚ} (hx : b.min ≤ x) {e : PErr}
    (he : sec.stage env.svc (st.put l x) s i = .error e) : NotSurge e := by
  obtain ⟨c, t, s1, s2, s3, -⟩ := step_safe h.physical h.individual h.compressors h.stream (h.dry st) hl hz hb hx
  have hsh : sec.shaft ≠ l := fun e => h.individual.shaft (e ▸ List.mem_of_getElem? hl)
  obtain ⟨c0, h1, h2⟩ := runTo_comp s1
  rw [put_other _ _ _ _ hsh] at h2
  unfold Sec.stage at he
  rw [s1] at he
  rcases bind_error he with he | ⟨q, hq, he⟩
  · cases he
  · cases hq
    rcases bind_error he with he | ⟨o, -, he⟩
    · refine comp_error (svc := env.svc) (c := c) (n := st sec.shaft) ?_ (by rw [h2]) (by linarith) he
      rw [h2]
      exact h.compressors c0 h1
    · cases he

theorem Setup.stages (h : Setup env.svc sec s) (hroom : Roomy env.svc sec s) (hr : RootRaises env.roots.find) {ε : ℚ}
    (hw : RootWithin env.roots.find ε) (hlast : C74.LastIsRoot env.roots) (target : Nat → ℚ) :
    ∀ (ls : List Nat) (i : Nat) (acc : List (Conf Nat)) (st : Settings Nat), sec.loops.drop i = ls → (∀ k ∈ ls, st k = 0) →
      (∀ j, j < i → SafeAt env.svc sec st s j) →
      Calm (Section.stages env.svc env.roots env.remains sec target s i ls acc st).1 := by
  intro ls
  induction ls with
  | nil => intro i acc st _ _ _ p q; simp
  | cons l ls ih =>
    intro i acc st hd hz hsafe
    obtain ⟨d1, d2, d3⟩ := drop_cons hd
    have hlm : l ∈ sec.loops := List.mem_of_getElem? d1
    have hnd : l ∉ ls := by
      have := (List.drop_sublist i sec.loops).nodup h.individual.nodup
      rw [hd] at this
      exact (List.nodup_cons.mp this).1
    unfold Section.stages
    cases hb : sec.range env.svc st s i with
    | error e => exact range_error h.physical h.individual h.compressors hsafe hb
    | ok b =>
      dsimp only
      have hq := findRecirc_quiet (tol := 1 / 100) (n := 20) hr (hroom st i b hb) (value := target i) (ptol := pressureTol)
        (f := fun x => sec.stage env.svc (st.put l x) s i) fun x e hx he => h.stage_error d1 (hz l (by simp)) hb hx he
      cases hf : findRecirc (1 / 100) 20 env.roots.find b (some (target i, pressureTol))
          (fun x => sec.stage env.svc (st.put l x) s i) with
      | error e => rw [hf] at hq; exact hq
      | ok fd =>
        rw [hf] at hq
        obtain ⟨x, fl⟩ := fd
        cases fl with
        | some fl =>
          intro p q hh
          simp only [Option.some.injEq, SFailure.finding.injEq] at hh
          subst hh
          exact hq p q rfl
        | none =>
          dsimp only
          rw [C74.recircLast_root hlast hf]
          obtain ⟨p, hp, -⟩ := C74.recirc_success hw hf
          refine ih (i + 1) _ _ d2
            (fun k hk => by rw [put_other _ _ _ _ (show k ≠ l from fun e => hnd (e ▸ hk))]; exact hz k (by simp [hk])) ?_
          intro j hj
          by_cases he : j = i
          · subst he; exact stage_safe hp
          · refine (hsafe j (by omega)).local h.individual fun k hk => (put_other _ _ _ _ ?_).symm
            rintro rfl
            rcases hk with hk | hk
            · exact hk hlm
            · refine take_or_drop h.individual.nodup (i := i) (k := k) ?_ (by rw [hd]; simp)
              exact (List.take_prefix_take_left (by omega)).subset hk

theorem Setup.pressure (h : Setup env.svc sec s) (hroom : Roomy env.svc sec s) (hr : RootRaises env.roots.find) {ε : ℚ}
    (hw : RootWithin env.roots.find ε) (hlast : C74.LastIsRoot env.roots) (value : ℚ) (st : Settings Nat) :
    Calm (Section.controlPressure env.svc env.roots env.ratio env.remains sec value s st).1 := by
  unfold Section.controlPressure
  obtain ⟨h1, h2⟩ := h.least hroom (st := resetAll sec.loops st) fun k hk => C73.resetAll_mem _ _ _ hk
  generalize minAchievable env.svc sec s (resetAll sec.loops st) = a at h1 h2
  obtain ⟨a1, a2⟩ := a
  cases a1 with
  | error e => exact h1 e rfl
  | ok r =>
    obtain ⟨cs, p⟩ := r
    dsimp only
    split
    · intro p q; simp
    · exact h.stages hroom hr hw hlast _ sec.loops 0 [] a2 (by simp) (fun k hk => h2 _ rfl k hk) (by simp)

theorem Setup.finish (h : Setup env.svc sec s) (hr : RootRaises env.roots.find) {ε : ℚ}
    (hw : RootWithin env.roots.find ε) (hroom : sec.control = .asvRate ∨ sec.control = .asvPressure → Roomy env.svc sec s)
    (hlast : sec.control = .asvPressure → C74.LastIsRoot env.roots) {value tol : ℚ} {confs : List (Conf Nat)}
    {st : Settings Nat} (hrun : ∀ e, sec.run env.svc (applyAll confs st) s = .error e → NotSurge e)
    (hz : ∀ c, sec.control = .downstreamChoke c → applyAll confs st c = 0) :
    Calm (Section.finish env sec value tol s confs st).1 := by
  unfold Section.finish
  cases ho : sec.run env.svc (applyAll confs st) s with
  | error e => exact hrun e ho
  | ok o =>
    dsimp only
    split
    · intro p q; simp
    · have hcalm : Calm (sec.controlPressure env value tol s (applyAll confs st)).1 := by
        unfold Sec.controlPressure
        cases hc : sec.control with
        | downstreamChoke c => exact downstream_calm ho (hz c hc)
        | upstreamChoke c => exact h.upstream hr c value _
        | commonAsv l => exact absurd hc (h.control l)
        | asvRate => exact h.rate (hroom (.inl hc)) hr hw value _
        | asvPressure => exact h.pressure (hroom (.inr hc)) hr hw (hlast hc) value _
      generalize sec.controlPressure env value tol s (applyAll confs st) = a at hcalm
      obtain ⟨a1, a2⟩ := a
      cases a1 with
      | error e => exact hcalm
      | ok pc => exact hcalm

/-- **No surge.** A section with individual anti-surge loops never reports surge, whatever the target and whatever the
pressure control. -/
theorem C77_solver (h : Setup env.svc sec s) (hd : C74.Distinct sec) (hr : RootRaises env.roots.find) {ε : ℚ}
    (hw : RootWithin env.roots.find ε) (hroom : sec.control = .asvRate ∨ sec.control = .asvPressure → Roomy env.svc sec s)
    (hlast : sec.control = .asvPressure → C74.LastIsRoot env.roots) (value tol : ℚ) (st : Settings Nat) :
    (∀ sol st', findSolution env sec value tol s st = (.ok sol, st') → ∀ p q, sol.failure ≠ some (.finding (.surge p q))) ∧
    ∀ e st', findSolution env sec value tol s st = (.error e, st') → NotSurge e := by
  have hE : Calm (findSolutionE env sec value tol s st).1 := by
    unfold findSolutionE findSpeedSolution
    dsimp only
    have hq := findSpeed_quiet (tol := 1 / 100000) (n := 20) hr (target := value)
      (f := fun x => (speedFunc env sec s (resetAll sec.controlHandlers st) x).1)
      (fun x e he => h.speed _ x e he) 2 sec.bound
    cases hf : findSpeed (1 / 100000) 20 env.roots.find value
        (fun x => (speedFunc env sec s (resetAll sec.controlHandlers st) x).1) 2 sec.bound with
    | error e => rw [hf] at hq; exact hq
    | ok fd =>
      rw [hf] at hq
      dsimp only
      generalize hst1 : leave env.remains (sec.shaft :: sec.surgeHandlers) (resetAll sec.controlHandlers st) = st1
      have hmap : ∀ p q, (fd.failure.map SFailure.finding) ≠ some (.finding (.surge p q)) := by
        intro p q hh
        rw [Option.map_eq_some_iff] at hh
        obtain ⟨y, h1, h2⟩ := hh
        cases h2
        exact hq p q h1
      unfold afterSpeed
      split
      · exact hmap
      · rw [antiSurge_eq h.control]
        obtain ⟨h1, h2⟩ := h.surge (st1.put sec.shaft fd.config)
        have hoth := C73.individual_other env.svc sec s (st1.put sec.shaft fd.config)
        generalize individualAntiSurge env.svc sec s (st1.put sec.shaft fd.config) = a at h1 h2 hoth
        obtain ⟨a1, a2⟩ := a
        cases a1 with
        | error e => exact h1 e _ rfl
        | ok sol =>
          obtain ⟨k1, k2, k3⟩ := h2 sol a2 rfl
          dsimp only
          split
          · intro p q; simp [k1]
          · split
            · exact hmap
            · refine h.finish hr hw hroom hlast ?_ ?_
              · refine k3 (a2.put sec.shaft fd.config) fun k hk => ?_
                have := hoth k hk
                dsimp only at this
                by_cases he : k = sec.shaft
                · rw [he, put_self, put_self]
                · rw [put_other _ _ _ _ he]; exact this
              · intro c hc
                have hcl : c ∉ sec.loops := hd.2 c (.inr hc)
                have hcm : c ∈ sec.controlHandlers := by unfold Sec.controlHandlers; rw [hc]; simp
                have hcs : c ≠ sec.shaft := fun e => hd.1 (by rw [← e]; exact List.mem_append_right _ hcm)
                rw [C73.applyAll_not_mem]
                · have := hoth c hcl
                  dsimp only at this
                  rw [this, put_other _ _ _ _ hcs, ← hst1, C73.leave_not_mem, C73.resetAll_mem _ _ _ hcm]
                  rw [surge_eq h.control]
                  simp [hcs, hcl]
                · rw [List.map_cons, k2]
                  simp [hcs, hcl]
  unfold findSolution
  generalize findSolutionE env sec value tol s st = a at hE
  obtain ⟨a1, a2⟩ := a
  cases a1 with
  | ok sol => exact ⟨fun sol' st' hh => by cases hh; exact hE, fun e st' hh => by cases hh⟩
  | error e =>
    dsimp only
    cases hc : caught e with
    | none => exact ⟨fun sol st' hh => (by cases hh), fun e' st' hh => by cases hh; exact hE⟩
    | some fl =>
      refine ⟨fun sol st' hh => ?_, fun e' st' hh => by cases hh⟩
      cases hh
      intro p q hfl
      simp only [Option.some.injEq] at hfl
      subst hfl
      cases e <;> first | exact hE.elim | simp [caught] at hc

/-! ## Assembled sections -/

/-- **Assembled.** Sections assembled with individual anti-surge from units other than direct mixers and splitters are as
needed. -/
theorem C77_assembled {next : Nat} {pc : PControl} {units : List ProcUnit} {a : Assembled} {n : Nat}
    (hv : validate pc .individual units = .ok ()) (ha : assemble next .individual pc units = (a, n)) {shaft : Nat}
    (hshaft : shaft < next) {bound : Boundary} {sec : Sec Nat} (hsec : assembleSolver a pc shaft bound = .ok sec)
    (hu : ∀ u ∈ units, (∀ r, u ≠ .directMixer r) ∧ ∀ r, u ≠ .directSplitter r) :
    Individual sec ∧ C74.Distinct sec ∧ (∀ l, sec.control ≠ .commonAsv l) ∧
    (∀ c, .comp c ∈ sec.slots ↔ .compressor c ∈ units) := by
  obtain ⟨-, v2, -⟩ := C76.validate_ok hv
  obtain ⟨g1, -, -, -, -, -, -, -, -, g10⟩ := C76.C76_assembled next .individual pc units a n ha
  obtain ⟨e1, e2, e3, -, -, p2, p3, p4, p5, p6⟩ := C76.solver_parts hsec
  obtain ⟨-, q2, -, -, q5, q6, -⟩ := C76.C76_proper hv ha hshaft hsec
  have hcnt := C76.assemble_count ha
  have hhid := C76.no_hidden a.slots (by rw [g1]; exact hcnt)
  have hmem : ∀ u ∈ a.slots, ∀ v, C76.original u = some v → v ∈ units := by
    intro u hu v hv
    rw [← g1]
    exact List.mem_filterMap.mpr ⟨u, hu, hv⟩
  obtain ⟨r1, r2⟩ := g10 (by simp)
  refine ⟨⟨by rw [e1, e2]; exact r1, ?_, q5, q6, ?_⟩, q2, ?_, ?_⟩
  · rw [e1, e2, r2]; exact hcnt
  · intro u hm v hv
    rw [e1] at hm
    subst hv
    exact ⟨fun c e => hhid _ hm c (by rw [e]), hu v (hmem _ hm v rfl)⟩
  · intro l hl
    cases pc with
    | commonAsv => rcases v2 with v2 | v2 <;> simp [requiredAntiSurge] at v2
    | asvRate => rw [p2 rfl] at hl; cases hl
    | asvPressure => rw [p3 rfl] at hl; cases hl
    | downstreamChoke => obtain ⟨c, -, hc⟩ := p4 rfl; rw [hc] at hl; cases hl
    | upstreamChoke => obtain ⟨c, -, hc⟩ := p5 rfl; rw [hc] at hl; cases hl
  · intro c
    rw [e1]
    refine ⟨fun hm => hmem _ hm _ rfl, fun hm => ?_⟩
    rw [← g1, List.mem_filterMap] at hm
    obtain ⟨u, h1, h2⟩ := hm
    cases u with
    | fixed v =>
      simp only [C76.original, Option.some.injEq] at h2
      exact absurd (by rw [h2]) (hhid _ h1 c)
    | comp d =>
      simp only [C76.original, Option.some.injEq, ProcUnit.compressor.injEq] at h2
      rw [← h2]; exact h1
    | mix l => cases h2
    | split l => cases h2
    | choke l => cases h2

theorem dry_of {svc : Service} : ∀ {us : List ProcUnit}, (∀ u ∈ us, u ≠ .liquidRemover) → ∀ t, Dry svc us t := by
  intro us
  induction us with
  | nil => intro _ t; trivial
  | cons u us ih =>
    intro h t
    exact ⟨fun e => absurd e (h u (by simp)), fun t' _ => ih (fun v hv => h v (by simp [hv])) t'⟩

/-- **Dry.** Without liquid removers there is nothing to ask about liquid. -/
theorem C77_dry {svc : Service} {sec : Sec Nat} (h : ∀ u ∈ sec.slots, u ≠ .fixed .liquidRemover) (st : Settings Nat)
    (s : Stream) : DryLoops svc sec st s := by
  intro a l us c rest hsl t _
  refine dry_of (fun u hu e => ?_) t
  subst e
  exact h (.fixed .liquidRemover) (by rw [hsl]; simp [hu]) rfl

/-! ## Examples -/

/-- A service for positive pressures and temperatures. -/
def real : Service where
  flashPT := fun _ p t => if 0 < p ∧ 0 < t then .ok ⟨t, p, p / t, t, 1, 1, 4 / 5⟩ else .error .thermo
  flashPH := fun _ p _ t => if 0 < p ∧ 0 < t then .ok ⟨t, p, p / t, t, 1, 1, 4 / 5⟩ else .error .thermo
  removeLiquid := fun m p => if 0 < p.density then .ok (m, { p with vapor := 1, stdDensity := 4 / 5 }) else .error .thermo
  stdDensity := fun _ => 4 / 5

theorem real_physical : Physical real where
  lawful :=
    { pressure := by
        intro m p t r h
        simp only [real] at h
        split at h <;> cases h; rfl
      temperature := by
        intro m p t r h
        simp only [real] at h
        split at h <;> cases h; rfl
      density := by
        intro m p t r h
        simp only [real] at h
        split at h <;> cases h; rfl
      positive := by intro m; simp only [real]; norm_num }
  pt := by
    intro m p t r h
    simp only [real] at h
    split at h
    · rename_i hp; cases h; exact div_pos hp.1 hp.2
    · cases h
  ph := by
    intro m p h' t r h
    simp only [real] at h
    split at h
    · rename_i hp; cases h; exact ⟨div_pos hp.1 hp.2, rfl⟩
    · cases h
  removed := by
    intro m q m' r h
    simp only [real] at h
    split at h
    · rename_i hp; cases h; exact ⟨hp, rfl⟩
    · cases h
  ptError := by
    intro m p t e h
    simp only [real] at h
    split at h <;> cases h; trivial
  phError := by
    intro m p h' t e h
    simp only [real] at h
    split at h <;> cases h; trivial
  removedError := by
    intro m q e h
    simp only [real] at h
    split at h <;> cases h; trivial

/-- The compressor of C73 for positive pressures. -/
def lifter : Compressor where
  minFlow := fun n => n / 10
  maxFlow := fun n => n
  outlet := fun n s =>
    if 0 < s.props.pressure + n then
      .ok { s with props := { s.props with pressure := s.props.pressure + n, density := s.props.pressure + n } }
    else .error .thermo
  speed := none

theorem lifter_good : GoodCompressor real lifter := by
  refine ⟨?_, ?_⟩
  · intro n s o h hg
    simp only [lifter] at h
    split at h
    · rename_i hp; cases h; exact ⟨hg.1, hp, hg.2.2⟩
    · cases h
  · intro n s e h
    simp only [lifter] at h
    split at h <;> cases h; trivial

/-- A root finder for linear functions that accepts only roots in a proper bracket. -/
def careful : RootFinder := fun b g =>
  if b.min ≤ b.max then do
    let x ← C73.linear b g
    if b.min ≤ x ∧ x ≤ b.max then do
      let y ← g x
      if |y| ≤ 1 / 1000 then return x else .error .notConverged
    else .error .notConverged
  else .error .notConverged

/-- Two compressors, the second behind a cooler in its loop. -/
def units : List ProcUnit := [.compressor lifter, .temperatureSetter 2, .compressor lifter]

def setting : Env Nat := ⟨real, C74.finishing careful, fun _ _ => 2, fun _ => 7⟩

theorem careful_raises : RootRaises careful := by
  intro b g e h
  unfold careful at h
  split at h
  · rename_i hb
    rcases bind_error h with h | ⟨x, -, h⟩
    · unfold C73.linear at h
      rcases bind_error h with h | ⟨u, -, h⟩
      · exact .inr ⟨_, le_refl _, hb, h⟩
      · rcases bind_error h with h | ⟨v, -, h⟩
        · exact .inr ⟨_, hb, le_refl _, h⟩
        · cases h
    · split at h
      · rename_i hx
        rcases bind_error h with h | ⟨y, -, h⟩
        · exact .inr ⟨x, hx.1, hx.2, h⟩
        · split at h
          · cases h
          · cases h; exact .inl trivial
      · cases h; exact .inl trivial
  · cases h; exact .inl trivial

theorem careful_within : RootWithin careful (1 / 1000) := by
  intro b g x h
  unfold careful at h
  split at h
  · obtain ⟨z, -, h⟩ := C74.bind_ok h
    split at h
    · rename_i hx
      obtain ⟨y, hy, h⟩ := C74.bind_ok h
      split at h
      · rename_i hle
        cases h
        exact ⟨hx.1, hx.2, y, hy, hle⟩
      · cases h
    · cases h
  · cases h

/-- The section assembled from the units, for any target: all conditions hold, so surge is never reported. -/
example (pc : PControl) (hpc : pc = .upstreamChoke ∨ pc = .downstreamChoke) (sec : Sec Nat)
    (hsec : assembleSolver (assemble 1 .individual pc units).1 pc 0 ⟨10, 100⟩ = .ok sec) (value : ℚ) (st st' : Settings Nat)
    (sol : Sol Nat) (h : findSolution setting sec value (1 / 1000) (C73.inlet 60) st = (.ok sol, st')) (p q : ℚ) :
    sol.failure ≠ some (.finding (.surge p q)) := by
  have hv : validate pc .individual units = .ok () := by rcases hpc with rfl | rfl <;> decide +kernel
  obtain ⟨h1, h2, h3, h4⟩ := C77_assembled hv rfl (by omega) hsec (by simp [units])
  have hcon : sec.control ≠ .asvRate ∧ sec.control ≠ .asvPressure := by
    obtain ⟨-, -, -, -, -, -, -, p4, p5, -⟩ := C76.solver_parts hsec
    rcases hpc with rfl | rfl
    · obtain ⟨c, -, hc⟩ := p5 rfl; rw [hc]; simp
    · obtain ⟨c, -, hc⟩ := p4 rfl; rw [hc]; simp
  have hsetup : Setup setting.svc sec (C73.inlet 60) := by
    refine ⟨real_physical, h1, ?_, ⟨rfl, by norm_num [C73.inlet], by norm_num [C73.inlet]⟩, ?_, h3⟩
    · intro c hc
      have := (h4 c).mp hc
      simp only [units, List.mem_cons, ProcUnit.compressor.injEq, reduceCtorEq, List.not_mem_nil, or_false, false_or, or_self] at this
      subst this
      exact lifter_good
    · intro w
      refine C77_dry (fun u hu e => ?_) w _
      subst e
      obtain ⟨e1, -⟩ := C76.solver_parts hsec
      have hm : (assemble 1 .individual pc units).1.slots.filterMap C76.original = units :=
        (C76.C76_assembled 1 .individual pc units _ _ rfl).1
      have : ProcUnit.liquidRemover ∈ units := by
        rw [← hm, ← e1]
        exact List.mem_filterMap.mpr ⟨_, hu, rfl⟩
      simp [units] at this
  exact (C77_solver hsetup h2 careful_raises careful_within (fun hc => absurd hc (by simp [hcon.1, hcon.2]))
    (fun hc => absurd hc hcon.2) value (1 / 1000) st).1 sol st' h p q

/-- What the solver returns for two targets: 100 bara with rates in both loops, the flows at the minimum plus the margin. -/
example : (match assembleSolver (assemble 1 .individual .upstreamChoke units).1 .upstreamChoke 0 ⟨10, 100⟩ with
    | .ok sec => (C74.told (findSolution setting sec 100 (1 / 1000) (C73.inlet 60) fun _ => 5),
        [0, 1].map fun i => ((sec.runTo real (applyAll [⟨0, 40⟩, ⟨1, 600 + 1 / 1000000⟩, ⟨2, 1800 + 1 / 1000000⟩] fun _ => 0)
          (C73.inlet 60) i).toOption.map fun r => (r.1.minFlow 40, r.2.volRate)))
    | .error _ => (none, [])) =
    (some ([(0, 40), (1, 600 + 1 / 1000000), (2, 1800 + 1 / 1000000)], none),
      [some (4, 4 + 1 / 600000000), some (4, 4 + 1 / 900000000)]) := by
  decide +kernel

/-! ## Deviation -/

/-- Gas with a tenth of liquid. -/
def wet (mass : ℚ) : Stream := ⟨C73.gas, ⟨1, 20, 20, 1, 9 / 10, 1, 4 / 5⟩, mass⟩

/-- A compressor behind a liquid remover. -/
def scrubbed : List ProcUnit := [.liquidRemover, .compressor lifter]

/-- **Deviation.** With a liquid remover in the loop and liquid to remove, a tenth of what the loop adds is removed again
before the compressor. At speed 80 anti-surge reports success with the rate 3180.000001; the compressor then gets 7.47 of
the 8 it needs. For 100 bara the solver reports surge, although that speed with the rate 3540 gives 100 bara. -/
theorem C77_wet :
    validate .downstreamChoke .individual scrubbed = .ok () ∧
    ∃ sec, assembleSolver (assemble 1 .individual .downstreamChoke scrubbed).1 .downstreamChoke 0 ⟨10, 100⟩ = .ok sec ∧
      C74.told (individualAntiSurge real sec (wet 60) fun k => if k = 0 then 80 else 0) =
        some ([(1, 3180 + 1 / 1000000)], none) ∧
      (sec.run real (fun k => if k = 0 then 80 else if k = 1 then 3180 + 1 / 1000000 else 0) (wet 60)).map (·.mass) =
        .error (.surge (747 / 100 + 9 / 6000000000) 8) ∧
      (C74.told (findSolution setting sec 100 (1 / 1000) (wet 60) fun _ => 5)).map (·.2) =
        some (some (.finding (.surge (927 / 100 + 9 / 6000000000) 10))) ∧
      (sec.run real (fun k => if k = 0 then 80 else if k = 1 then 3540 else 0) (wet 60)).map (·.props.pressure) = .ok 100 := by
  refine ⟨by decide +kernel, _, rfl, ?_⟩
  decide +kernel

end Verif.C77
