import Verif.Model.Loops
import Verif.Props.C40
import Mathlib.Algebra.BigOperators.Group.List.Basic
import Mathlib.Algebra.Order.BigOperators.Group.List
import Mathlib.Data.List.Dedup

/-!
# C41: recirculation leaves the net rate unchanged
-/

namespace Verif.C41
open Verif.Process Verif.C40

/-! ## Specification -/

/-- Standard rate added by a unit (negative: removed). -/
def added : ProcUnit → ℚ
  | .directMixer r => r
  | .directSplitter r => -r
  | .splitter r => -r
  | _ => 0

/-- Units that do not change the fluid: compressors, if the compression keeps mass rate and fluid, and all units but
mixers of other streams and liquid removers. -/
def Keeps : ProcUnit → Prop
  | .mixer _ => False
  | .liquidRemover => False
  | .compressor c => ∀ n s o, c.outlet n s = .ok o → o.mass = s.mass ∧ o.model = s.model ∧
      o.props.stdDensity = s.props.stdDensity
  | _ => True

/-- The density at standard conditions of the stream is the service's. -/
def Standard (svc : Service) (s : Stream) : Prop := s.props.stdDensity = svc.stdDensity s.model

def isMixer (k : Nat) : Place → Bool
  | .mixerOf j => decide (j = k)
  | _ => false

def isSplitter (k : Nat) : Place → Bool
  | .splitterOf j => decide (j = k)
  | _ => false

/-- Every loop has as many mixers as splitters in the train (in practice one of each); loops may be nested, overlap or
follow each other. -/
def Balanced (places : List Place) : Prop :=
  ∀ k, places.countP (isMixer k) = places.countP (isSplitter k)

/-! ## Lemmas -/

theorem make_ok (m : FluidModel) (p : Props) (mass : ℚ) (o : Stream) (h : Stream.make m p mass = .ok o) :
    o = ⟨m, p, mass⟩ ∧ 0 ≤ mass := by
  unfold Stream.make at h
  split at h
  · cases h
  · rename_i hm
    cases h
    exact ⟨rfl, not_lt.mp hm⟩

/-- One unit: mass rate, fluid and standard density. -/
theorem unit_mass (svc : Service) (hs : Lawful svc) (u : ProcUnit) (hu : Keeps u) (s o : Stream)
    (hst : Standard svc s) (h : u.propagate svc s = .ok o) :
    o.mass = s.mass + added u * svc.stdDensity s.model / 24 ∧ o.model = s.model ∧ Standard svc o := by
  have hpos := hs.positive s.model
  have hne : svc.stdDensity s.model ≠ 0 := ne_of_gt hpos
  have hch : ∀ dp, choke svc dp s = .ok o →
      o.mass = s.mass + 0 * svc.stdDensity s.model / 24 ∧ o.model = s.model ∧ Standard svc o := by
    intro dp hd
    obtain ⟨-, -, h3, h4, h5, -, -⟩ := C40_choke svc hs dp s o hd
    refine ⟨by rw [h5 hst]; ring, h3, ?_⟩
    unfold choke at hd
    split at hd
    · simp only at hd
      split at hd
      · cases hd
      · obtain ⟨g1, g2, -, -⟩ := fromStdRate_ok _ _ _ _ _ _ hd
        unfold Standard
        rw [hs.density _ _ _ _ g1, g2]
    · cases hd
      exact hst
  cases u with
  | inlet => cases h; exact ⟨by simp [added], rfl, hst⟩
  | outlet => cases h; exact ⟨by simp [added], rfl, hst⟩
  | choke dp => exact hch dp h
  | pressureDropper dp => exact hch dp h
  | temperatureSetter t =>
    simp only [ProcUnit.propagate, setTemperature] at h
    split at h
    · simp only [Bind.bind, Except.bind] at h
      split at h
      · cases h
      · rename_i r hr
        obtain ⟨h1, -⟩ := make_ok _ _ _ _ h
        subst h1
        refine ⟨by simp [added], rfl, ?_⟩
        exact hs.density _ _ _ _ hr
    · cases h
      exact ⟨by simp [added], rfl, hst⟩
  | liquidRemover => exact absurd hu (by simp [Keeps])
  | directMixer r =>
    obtain ⟨h1, -⟩ := make_ok _ _ _ _ h
    subst h1
    refine ⟨?_, rfl, hst⟩
    simp only [added]
    rw [hst]
  | directSplitter r =>
    obtain ⟨h1, -⟩ := make_ok _ _ _ _ h
    subst h1
    refine ⟨?_, rfl, hst⟩
    simp only [added]
    rw [hst]
    ring
  | splitter r =>
    simp only [ProcUnit.propagate, split] at h
    split at h
    · cases h
    · obtain ⟨g1, g2, g3, -⟩ := fromStdRate_ok _ _ _ _ _ _ h
      refine ⟨?_, g2, ?_⟩
      · rw [g3]
        simp only [added, Stream.stdRate]
        rw [hst]
        field_simp
        ring
      · unfold Standard
        rw [hs.density _ _ _ _ g1, g2]
  | mixer e => exact absurd hu (by simp [Keeps])
  | compressor c =>
    simp only [ProcUnit.propagate, Compressor.propagate] at h
    split at h
    · cases h
    · simp only [Bind.bind, Except.bind] at h
      split at h
      · cases h
      · split at h
        · cases h
        · split at h
          · cases h
          · obtain ⟨g1, g2, g3⟩ := hu _ _ _ h
            refine ⟨by rw [g1]; simp [added], g2, ?_⟩
            unfold Standard
            rw [g3, g2]
            exact hst

theorem stdRate_of_mass (svc : Service) (hs : Lawful svc) (s o : Stream) (x : ℚ) (hst : Standard svc s)
    (hso : Standard svc o) (hm : o.model = s.model) (h : o.mass = s.mass + x * svc.stdDensity s.model / 24) :
    o.stdRate = s.stdRate + x := by
  have hne : svc.stdDensity s.model ≠ 0 := ne_of_gt (hs.positive s.model)
  unfold Stream.stdRate
  rw [hso, hst, hm, h]
  field_simp

/-! ## Rates along a train -/

/-- **Rates along a train.** Through any sequence of units that keep the fluid, the mass rate changes by exactly the
mass of the rates added and removed, and the standard rate by the rates themselves; in particular at every point
between a mixer and its splitter the rate is the entering rate plus the recirculated rate. -/
theorem C41_train (svc : Service) (hs : Lawful svc) (us : List ProcUnit) (hu : ∀ u ∈ us, Keeps u) (s o : Stream)
    (hst : Standard svc s) (h : runUnits svc us s = .ok o) :
    o.mass = s.mass + (us.map added).sum * svc.stdDensity s.model / 24 ∧ o.stdRate = s.stdRate + (us.map added).sum ∧
      o.model = s.model ∧ Standard svc o := by
  have main : o.mass = s.mass + (us.map added).sum * svc.stdDensity s.model / 24 ∧ o.model = s.model ∧
      Standard svc o := by
    induction us generalizing s with
    | nil =>
      cases h
      exact ⟨by simp, rfl, hst⟩
    | cons u us ih =>
      simp only [runUnits, Bind.bind, Except.bind] at h
      split at h
      · cases h
      · rename_i t ht
        obtain ⟨a1, a2, a3⟩ := unit_mass svc hs u (hu u (by simp)) s t hst ht
        obtain ⟨b1, b2, b3⟩ := ih (fun v hv => hu v (by simp [hv])) t a3 h
        refine ⟨?_, by rw [b2, a2], b3⟩
        rw [b1, a1, a2]
        simp only [List.map_cons, List.sum_cons]
        ring
  obtain ⟨h1, h2, h3⟩ := main
  exact ⟨h1, stdRate_of_mass svc hs s o _ hst h3 h2 h1, h2, h3⟩

/-- The rate contributed by the mixers and splitters of loops. -/
theorem sum_places (loops : Nat → Loop) (heq : ∀ k, (loops k).mixRate = (loops k).splitRate) (places : List Place)
    (hfix : ∀ u, Place.fixed u ∈ places → added u = 0) (K : List Nat) (hK : K.Nodup)
    (hin : ∀ k, Place.mixerOf k ∈ places ∨ Place.splitterOf k ∈ places → k ∈ K) :
    ((places.map (Place.unit loops)).map added).sum = (K.map fun k => (loops k).mixRate *
      ((places.countP (isMixer k) : ℚ) - (places.countP (isSplitter k) : ℚ))).sum := by
  induction places with
  | nil => simp
  | cons p ps ih =>
    have hfix' : ∀ u, Place.fixed u ∈ ps → added u = 0 := fun u hu => hfix u (by simp [hu])
    have hin' : ∀ k, Place.mixerOf k ∈ ps ∨ Place.splitterOf k ∈ ps → k ∈ K := by
      intro k hk
      apply hin k
      rcases hk with hk | hk
      · left; simp [hk]
      · right; simp [hk]
    have ih' := ih hfix' hin'
    have single : ∀ (j : Nat) (v : ℚ), j ∈ K → (K.map fun k => if j = k then v else 0).sum = v := by
      intro j v hj
      clear ih ih' hin hin'
      induction K with
      | nil => simp at hj
      | cons a K ihK =>
        rw [List.nodup_cons] at hK
        simp only [List.map_cons, List.sum_cons]
        by_cases hja : j = a
        · subst hja
          have : (K.map fun k => if j = k then v else 0).sum = 0 := by
            apply List.sum_eq_zero
            intro x hx
            rw [List.mem_map] at hx
            obtain ⟨k, hk, rfl⟩ := hx
            rw [if_neg]
            intro hh
            subst hh
            exact hK.1 hk
          rw [this]
          simp
        · rw [if_neg hja, zero_add]
          rcases List.mem_cons.mp hj with h | h
          · exact absurd h hja
          · exact ihK hK.2 h
    have addSum : ∀ (g h : Nat → ℚ), (K.map fun k => g k + h k).sum = (K.map g).sum + (K.map h).sum := by
      intro g h
      clear ih ih' hin hin' single
      induction K with
      | nil => simp
      | cons a K ihK =>
        rw [List.nodup_cons] at hK
        simp only [List.map_cons, List.sum_cons]
        rw [ihK hK.2]
        ring
    simp only [List.map_cons, List.sum_cons]
    rw [ih']
    cases p with
    | fixed u =>
      have h0 : added (Place.unit loops (.fixed u)) = 0 := hfix u (by simp)
      rw [h0, zero_add]
      simp [isMixer, isSplitter]
    | mixerOf j =>
      have hj : j ∈ K := hin j (by simp)
      have h0 : added (Place.unit loops (.mixerOf j)) = (loops j).mixRate := rfl
      rw [h0, ← single j (loops j).mixRate hj, ← addSum]
      congr 1
      apply List.map_congr_left
      intro k _
      simp only [List.countP_cons, isMixer, isSplitter]
      by_cases hjk : j = k
      · subst hjk
        simp
        ring
      · simp [hjk]
    | splitterOf j =>
      have hj : j ∈ K := hin j (by simp)
      have h0 : added (Place.unit loops (.splitterOf j)) = -(loops j).mixRate := by
        rw [heq j]
        rfl
      rw [h0, ← single j (-(loops j).mixRate) hj, ← addSum]
      congr 1
      apply List.map_congr_left
      intro k _
      simp only [List.countP_cons, isMixer, isSplitter]
      by_cases hjk : j = k
      · subst hjk
        simp
        ring
      · simp [hjk]

/-- The loops met in a train. -/
def loopsOf : Place → List Nat
  | .fixed _ => []
  | .mixerOf k => [k]
  | .splitterOf k => [k]

/-- **Loops conserve the rate.** Through a train whose loops (nested, overlapping or consecutive) each have a mixer
and a splitter holding the same rate, the rate that leaves is the rate that enters, whatever the loops' rates. -/
theorem C41_loops (svc : Service) (hs : Lawful svc) (loops : Nat → Loop)
    (heq : ∀ k, (loops k).mixRate = (loops k).splitRate) (places : List Place)
    (hfix : ∀ u, Place.fixed u ∈ places → Keeps u ∧ added u = 0) (hb : Balanced places) (s o : Stream)
    (hst : Standard svc s) (h : runUnits svc (places.map (Place.unit loops)) s = .ok o) :
    o.mass = s.mass ∧ o.stdRate = s.stdRate ∧ o.model = s.model := by
  have hk : ∀ u ∈ places.map (Place.unit loops), Keeps u := by
    intro u hu
    rw [List.mem_map] at hu
    obtain ⟨p, hp, rfl⟩ := hu
    cases p with
    | fixed u => exact (hfix u hp).1
    | mixerOf k => trivial
    | splitterOf k => trivial
  obtain ⟨h1, h2, h3, -⟩ := C41_train svc hs _ hk s o hst h
  have hz : ((places.map (Place.unit loops)).map added).sum = 0 := by
    rw [sum_places loops heq places (fun u hu => (hfix u hu).2) (places.flatMap loopsOf).dedup (List.nodup_dedup _)]
    · apply List.sum_eq_zero
      intro x hx
      rw [List.mem_map] at hx
      obtain ⟨k, -, rfl⟩ := hx
      rw [hb k]
      ring
    · intro k hk'
      rw [List.mem_dedup, List.mem_flatMap]
      rcases hk' with hk' | hk'
      · exact ⟨_, hk', by simp [loopsOf]⟩
      · exact ⟨_, hk', by simp [loopsOf]⟩
  rw [hz] at h1 h2
  exact ⟨by rw [h1]; ring, by rw [h2]; ring, h3⟩

/-- **Loops stay consistent.** Whatever is done to a loop, accepted or refused, mixer and splitter hold the same rate
if they did before; and after one accepted operation they do in any case. -/
theorem C41_loop_state (l : Loop) (ops : List LoopOp) :
    (l.mixRate = l.splitRate → (l.run ops).mixRate = (l.run ops).splitRate) ∧
    ((∃ op ∈ ops, ∃ l', l.step op = .ok l') → (l.run ops).mixRate = (l.run ops).splitRate) ∧
    (l.run ops).id = l.id := by
  have hstep : ∀ (l l' : Loop) (op : LoopOp), l.step op = .ok l' → l'.mixRate = l'.splitRate ∧ l'.id = l.id := by
    intro l l' op h
    cases op with
    | reset => cases h; exact ⟨rfl, rfl⟩
    | configure hd v =>
      unfold Loop.step at h
      simp only at h
      split at h
      · cases h
      · cases v with
        | recirculation r => cases h; exact ⟨rfl, rfl⟩
        | _ => cases h
  have hkeep : ∀ (ops : List LoopOp) (l : Loop), (l.mixRate = l.splitRate →
      (l.run ops).mixRate = (l.run ops).splitRate) ∧ (l.run ops).id = l.id := by
    intro ops
    induction ops with
    | nil => intro l; exact ⟨fun h => h, rfl⟩
    | cons op ops ih =>
      intro l
      unfold Loop.run
      cases h : l.step op with
      | error e => simp only; exact ih l
      | ok l' =>
        simp only
        obtain ⟨a1, a2⟩ := hstep l l' op h
        obtain ⟨b1, b2⟩ := ih l'
        exact ⟨fun _ => b1 a1, by rw [b2, a2]⟩
  refine ⟨(hkeep ops l).1, ?_, (hkeep ops l).2⟩
  induction ops with
  | nil => rintro ⟨op, h, -⟩; simp at h
  | cons op ops ih =>
    rintro ⟨op', hm, l', hl'⟩
    unfold Loop.run
    cases h : l.step op with
    | ok l'' =>
      simp only
      exact (hkeep ops l'').1 (hstep _ _ _ h).1
    | error e =>
      simp only
      rcases List.mem_cons.mp hm with rfl | hm
      · rw [h] at hl'; cases hl'
      · exact ih ⟨op', hm, l', hl'⟩

/-- What a loop holds after an accepted recirculation rate. -/
theorem C41_loop_set (l : Loop) (rate : ℚ) :
    l.step (.configure l.id (.recirculation rate)) = .ok ⟨l.id, rate, rate⟩ ∧
    l.step .reset = .ok ⟨l.id, 0, 0⟩ ∧
    (∀ k v, k ≠ l.id → l.step (.configure k v) = .error .value) ∧
    (∀ v, (∀ r, v ≠ .recirculation r) → l.step (.configure l.id v) = .error .assertion) := by
  refine ⟨by simp [Loop.step, Loop.setRate], rfl, ?_, ?_⟩
  · intro k v hk
    unfold Loop.step
    simp only
    rw [if_pos hk]
  · intro v hv
    cases v with
    | recirculation r => exact absurd rfl (hv r)
    | _ => simp [Loop.step]

/-! ## Recirculation range -/

/-- **Recirculation range.** For a compressor with a speed, and a stream of positive density: a recirculation rate in
the returned range brings the volume flow inside the compressor's limits, with the safety margin, provided the stream
alone is not above the upper limit; and every rate (not negative) that does so is in the range. -/
theorem C41_range (svc : Service) (hs : Lawful svc) (c : Compressor) (n : ℚ) (hn : c.speed = some n) (s : Stream)
    (hst : Standard svc s) (hd : 0 < s.props.density) (r : ℚ) (hr : 0 ≤ r) :
    ∃ b, c.recircRange svc s = .ok b ∧ 0 ≤ b.min ∧ 0 ≤ b.max ∧
      ∀ mg : ℚ, mg = recircTol * svc.stdDensity s.model / (24 * s.props.density) →
      ∀ t, directMix r s = .ok t →
        ((s.volRate ≤ c.maxFlow n - mg → b.min ≤ r → r ≤ b.max →
            c.minFlow n + mg ≤ t.volRate ∧ t.volRate ≤ c.maxFlow n - mg) ∧
         (c.minFlow n + mg ≤ t.volRate → t.volRate ≤ c.maxFlow n - mg → b.min ≤ r ∧ r ≤ b.max)) := by
  have hpos := hs.positive s.model
  have hne : svc.stdDensity s.model ≠ 0 := ne_of_gt hpos
  have hdn : s.props.density ≠ 0 := ne_of_gt hd
  have hb : c.recircRange svc s = .ok ⟨max 0 (svc.massToStd s.model (c.minFlow n * s.props.density) + recircTol - s.stdRate),
      max 0 (svc.massToStd s.model (c.maxFlow n * s.props.density) - recircTol - s.stdRate)⟩ := by
    unfold Compressor.recircRange Compressor.minStdRate Compressor.maxStdRate Compressor.getSpeed
    rw [hn]
    rfl
  refine ⟨_, hb, le_max_left _ _, le_max_left _ _, ?_⟩
  intro mg hmg t ht
  obtain ⟨h1, -⟩ := make_ok _ _ _ _ ht
  have hv : t.volRate = (s.mass + r * svc.stdDensity s.model / 24) / s.props.density := by
    rw [h1]
    unfold Stream.volRate
    simp only
    rw [hst]
  have hsr : s.stdRate = s.mass * 24 / svc.stdDensity s.model := by
    unfold Stream.stdRate
    rw [hst]
    field_simp
  have hvs : s.volRate = s.mass / s.props.density := rfl
  simp only [Service.massToStd]
  have key : ∀ a : ℚ, (a * s.props.density * 24 / svc.stdDensity s.model + recircTol - s.stdRate ≤ r ↔ a + mg ≤ t.volRate) := by
    intro a
    rw [hv, hmg, hsr, le_div_iff₀ hd]
    constructor
    · intro h
      have h2 : a * s.props.density * 24 / svc.stdDensity s.model + recircTol ≤ r + s.mass * 24 / svc.stdDensity s.model := by linarith
      have h3 := mul_le_mul_of_nonneg_right h2 (le_of_lt hpos)
      rw [add_mul, add_mul, div_mul_cancel₀ _ hne, div_mul_cancel₀ _ hne] at h3
      have : (a + recircTol * svc.stdDensity s.model / (24 * s.props.density)) * s.props.density =
          a * s.props.density + recircTol * svc.stdDensity s.model / 24 := by field_simp
      rw [this]
      linarith
    · intro h
      have : (a + recircTol * svc.stdDensity s.model / (24 * s.props.density)) * s.props.density =
          a * s.props.density + recircTol * svc.stdDensity s.model / 24 := by field_simp
      rw [this] at h
      have h2 : a * s.props.density * 24 / svc.stdDensity s.model + recircTol ≤ r + s.mass * 24 / svc.stdDensity s.model := by
        rw [← mul_le_mul_iff_left₀ hpos, add_mul, add_mul, div_mul_cancel₀ _ hne, div_mul_cancel₀ _ hne]
        linarith
      linarith
  have key2 : ∀ (a r' v : ℚ), v = (s.mass + r' * svc.stdDensity s.model / 24) / s.props.density →
      (r' ≤ a * s.props.density * 24 / svc.stdDensity s.model - recircTol - s.stdRate ↔ v ≤ a - mg) := by
    intro a r' v hv'
    rw [hv', hmg, hsr, div_le_iff₀ hd]
    have e1 : (a - recircTol * svc.stdDensity s.model / (24 * s.props.density)) * s.props.density =
          a * s.props.density - recircTol * svc.stdDensity s.model / 24 := by field_simp
    rw [e1]
    constructor
    · intro h
      have h2 : r' + s.mass * 24 / svc.stdDensity s.model ≤ a * s.props.density * 24 / svc.stdDensity s.model - recircTol := by linarith
      have h3 := mul_le_mul_of_nonneg_right h2 (le_of_lt hpos)
      rw [add_mul, sub_mul, div_mul_cancel₀ _ hne, div_mul_cancel₀ _ hne] at h3
      linarith
    · intro h
      have h2 : r' + s.mass * 24 / svc.stdDensity s.model ≤ a * s.props.density * 24 / svc.stdDensity s.model - recircTol := by
        rw [← mul_le_mul_iff_left₀ hpos, add_mul, sub_mul, div_mul_cancel₀ _ hne, div_mul_cancel₀ _ hne]
        linarith
      linarith
  constructor
  · intro hcap hlo hhi
    have h0 := (key2 (c.maxFlow n) 0 s.volRate (by rw [hvs]; simp)).mpr hcap
    refine ⟨(key _).mp (le_trans (le_max_right _ _) hlo), (key2 _ r _ hv).mp ?_⟩
    rw [max_eq_right h0] at hhi
    exact hhi
  · intro hlo hhi
    exact ⟨max_le hr ((key _).mpr hlo), le_trans ((key2 _ r _ hv).mpr hhi) (le_max_right _ _)⟩

/-- **In the range, no surge and no stonewall.** The compressor takes a stream, with recirculation from the range, to
its outlet calculation. -/
theorem C41_range_runs (svc : Service) (hs : Lawful svc) (c : Compressor) (n : ℚ) (hn : c.speed = some n) (s t : Stream)
    (hst : Standard svc s) (hd : 0 < s.props.density) (hv : pureVapor ≤ s.props.vapor) (r : ℚ) (hr : 0 ≤ r) (b : Boundary)
    (hb : c.recircRange svc s = .ok b) (hlo : b.min ≤ r) (hhi : r ≤ b.max)
    (hcap : s.volRate ≤ c.maxFlow n - recircTol * svc.stdDensity s.model / (24 * s.props.density))
    (ht : directMix r s = .ok t) : c.propagate t = c.outlet n t := by
  obtain ⟨b', hb', -, -, h⟩ := C41_range svc hs c n hn s hst hd r hr
  rw [hb] at hb'
  cases hb'
  obtain ⟨h1, h2⟩ := (h _ rfl t ht).1 hcap hlo hhi
  have hm : 0 ≤ recircTol * svc.stdDensity s.model / (24 * s.props.density) := by
    have := hs.positive s.model
    have : (0 : ℚ) < recircTol := by unfold recircTol; norm_num
    positivity
  have hvt : t.props.vapor = s.props.vapor := by
    obtain ⟨h1, -⟩ := make_ok _ _ _ _ ht
    rw [h1]
  unfold Compressor.propagate Compressor.getSpeed
  rw [hvt, if_neg (not_lt.mpr hv), hn]
  simp only [Bind.bind, Except.bind]
  rw [if_neg (by linarith), if_neg (by linarith)]

/-- **Finding.** For a stream above the compressor's upper limit the range is the single rate 0: the range does not tell that no rate at all brings the compressor within its capacity. -/
theorem C41_range_above (svc : Service) (hs : Lawful svc) (c : Compressor) (n : ℚ) (hn : c.speed = some n) (s : Stream)
    (hst : Standard svc s) (hd : 0 < s.props.density) (hle : c.minFlow n < c.maxFlow n) (hv : pureVapor ≤ s.props.vapor)
    (habove : c.maxFlow n + 2 * (recircTol * svc.stdDensity s.model / (24 * s.props.density)) < s.volRate) :
    c.recircRange svc s = .ok ⟨0, 0⟩ ∧ c.propagate s = .error (.stonewall s.volRate (c.maxFlow n)) := by
  have hpos := hs.positive s.model
  have hne : svc.stdDensity s.model ≠ 0 := ne_of_gt hpos
  have hdn : s.props.density ≠ 0 := ne_of_gt hd
  have htol : (0 : ℚ) < recircTol := by unfold recircTol; norm_num
  have hm : 0 ≤ recircTol * svc.stdDensity s.model / (24 * s.props.density) := by positivity
  constructor
  · have hb : c.recircRange svc s = .ok ⟨max 0 (svc.massToStd s.model (c.minFlow n * s.props.density) + recircTol - s.stdRate),
        max 0 (svc.massToStd s.model (c.maxFlow n * s.props.density) - recircTol - s.stdRate)⟩ := by
      unfold Compressor.recircRange Compressor.minStdRate Compressor.maxStdRate Compressor.getSpeed
      rw [hn]
      rfl
    have hsr : s.stdRate = s.mass * 24 / svc.stdDensity s.model := by
      unfold Stream.stdRate
      rw [hst]
      field_simp
    have h1 : svc.massToStd s.model (c.maxFlow n * s.props.density) + 2 * recircTol < s.stdRate := by
      rw [hsr]
      unfold Service.massToStd
      rw [← mul_lt_mul_iff_left₀ hpos, add_mul, div_mul_cancel₀ _ hne, div_mul_cancel₀ _ hne]
      have h2 := mul_lt_mul_of_pos_right habove hd
      have h3 : s.volRate * s.props.density = s.mass := by unfold Stream.volRate; field_simp
      have h4 : (c.maxFlow n + 2 * (recircTol * svc.stdDensity s.model / (24 * s.props.density))) * s.props.density =
          c.maxFlow n * s.props.density + 2 * recircTol * svc.stdDensity s.model / 24 := by field_simp
      rw [h3, h4] at h2
      linarith
    have h2 : svc.massToStd s.model (c.minFlow n * s.props.density) ≤ svc.massToStd s.model (c.maxFlow n * s.props.density) := by
      unfold Service.massToStd
      have : c.minFlow n * s.props.density ≤ c.maxFlow n * s.props.density := mul_le_mul_of_nonneg_right hle.le hd.le
      exact div_le_div_of_nonneg_right (by linarith) hpos.le
    rw [hb, max_eq_left (by linarith), max_eq_left (by linarith)]
  · unfold Compressor.propagate Compressor.getSpeed
    rw [if_neg (not_lt.mpr hv), hn]
    simp only [Bind.bind, Except.bind]
    rw [if_neg (by linarith), if_pos (by linarith)]

/-! ## Examples -/

def comp : Compressor := ⟨fun n => 20 * n, fun n => 40 * n, fun _ s => .ok { s with props := { s.props with pressure := 2 * s.props.pressure } }, some 100⟩

def places : List Place := [.mixerOf 0, .fixed (.compressor comp), .mixerOf 1, .fixed (.compressor comp), .splitterOf 0, .splitterOf 1]

def rates : Nat → Loop := fun k => if k = 0 then ⟨0, 7200, 7200⟩ else ⟨1, 3600, 3600⟩

example : ((runUnits ideal (places.map (Place.unit rates)) gas).map fun o => (o.mass, o.stdRate, o.props.pressure)) =
    .ok (240, 7200, 200) := by decide +kernel
example : ((runUnits ideal (places.map (Place.unit fun k => ⟨k, 0, 0⟩)) gas).map fun o => o.mass) =
    .error (.surge 1440 2000) := by decide +kernel
example : (comp.recircRange ideal gas) = .ok ⟨2800 + 1 / 1000000, 12800 - 1 / 1000000⟩ := by decide +kernel

end Verif.C41
