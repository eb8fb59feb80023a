import Verif.Props.C41

/-!
# C42: mixing streams conserves mass, energy and moles
-/

namespace Verif.C42
open Verif.Process Verif.C40 Verif.C41

/-! ## Specification -/

/-- What is assumed of a PH flash: it gives the requested pressure and enthalpy. -/
structure LawfulPH (svc : Service) : Prop where
  pressure : ∀ m p h g r, svc.flashPH m p h g = .ok r → r.pressure = p
  enthalpy : ∀ m p h g r, svc.flashPH m p h g = .ok r → r.enthalpy = h

/-- A stream as they are built: mass rate not negative, molar mass positive, fractions not negative and not all 0. -/
structure Valid (s : Stream) : Prop where
  mass : 0 ≤ s.mass
  molar : 0 < s.props.molarMass
  fractions : ∀ k, 0 ≤ s.model.composition k
  some : s.model.composition.total ≠ 0

/-- Moles per hour of a component (up to the unit). -/
def molarFlow (s : Stream) (k : Component) : ℚ :=
  s.mass / s.props.molarMass * (s.model.composition k / s.model.composition.total)

/-- Moles per hour. -/
def moles (s : Stream) : ℚ := s.mass / s.props.molarMass

/-! ## Lemmas -/

theorem all_components (k : Component) : k ∈ Component.all := by cases k <;> decide

theorem make_ok_iff (c : Composition) : Composition.make c = .ok c ↔ ∀ k, 0 ≤ c k := by
  unfold Composition.make
  split
  · rename_i h
    rw [List.all_eq_true] at h
    simp only [true_iff]
    intro k
    simpa using h k (all_components k)
  · rename_i h
    constructor
    · intro h'; cases h'
    · intro h'
      exfalso
      apply h
      rw [List.all_eq_true]
      intro k _
      simpa using h' k

theorem make_val (c d : Composition) (h : Composition.make c = .ok d) : d = c := by
  unfold Composition.make at h
  split at h
  · cases h; rfl
  · cases h

theorem total_nonneg (c : Composition) (h : ∀ k, 0 ≤ c k) : 0 ≤ c.total := by
  unfold Composition.total
  apply List.sum_nonneg
  intro x hx
  rw [List.mem_map] at hx
  obtain ⟨k, -, rfl⟩ := hx
  exact h k

theorem total_div (c : Composition) (a : ℚ) : Composition.total (fun k => c k / a) = c.total / a := by
  unfold Composition.total Component.all
  simp only [List.map_cons, List.map_nil, List.sum_cons, List.sum_nil]
  ring

theorem total_add (c d : Composition) : Composition.total (fun k => c k + d k) = c.total + d.total := by
  unfold Composition.total Component.all
  simp only [List.map_cons, List.map_nil, List.sum_cons, List.sum_nil]
  ring

theorem total_mul (c : Composition) (a : ℚ) : Composition.total (fun k => a * c k) = a * c.total := by
  unfold Composition.total Component.all
  simp only [List.map_cons, List.map_nil, List.sum_cons, List.sum_nil]
  ring

theorem normalized_valid (s : Stream) (h : Valid s) : Composition.normalized s.model.composition =
    .ok fun k => s.model.composition k / s.model.composition.total := by
  unfold Composition.normalized
  rw [if_neg h.some]
  rw [make_ok_iff]
  intro k
  exact div_nonneg (h.fractions k) (total_nonneg _ h.fractions)

theorem mixMoles_valid (l : List Stream) (h : ∀ s ∈ l, Valid s) :
    mixMoles l = .ok fun k => (l.map fun s => molarFlow s k).sum := by
  induction l with
  | nil => simp [mixMoles]
  | cons s l ih =>
    unfold mixMoles
    rw [normalized_valid s (h s (by simp)), ih (fun t ht => h t (by simp [ht]))]
    simp only [Bind.bind, Except.bind, Pure.pure, Except.pure, List.map_cons, List.sum_cons]
    rfl

theorem total_flow (s : Stream) (h : Valid s) : Composition.total (molarFlow s) = moles s := by
  have hs := h.some
  unfold moles
  have : molarFlow s = fun k => s.mass / s.props.molarMass * ((fun k => s.model.composition k / s.model.composition.total) k) := rfl
  rw [this, total_mul, total_div, div_self hs, mul_one]

theorem total_flows (l : List Stream) (h : ∀ s ∈ l, Valid s) :
    Composition.total (fun k => (l.map fun s => molarFlow s k).sum) = (l.map moles).sum := by
  induction l with
  | nil => simp [Composition.total, Component.all]
  | cons s l ih =>
    simp only [List.map_cons, List.sum_cons]
    rw [total_add (molarFlow s), total_flow s (h s (by simp)), ih (fun t ht => h t (by simp [ht]))]

theorem flow_nonneg (s : Stream) (h : Valid s) (k : Component) : 0 ≤ molarFlow s k :=
  mul_nonneg (div_nonneg h.mass h.molar.le) (div_nonneg (h.fractions k) (total_nonneg _ h.fractions))

theorem sum_nonneg' (l : List Stream) (f : Stream → ℚ) (h : ∀ s ∈ l, 0 ≤ f s) : 0 ≤ (l.map f).sum := by
  apply List.sum_nonneg
  intro x hx
  rw [List.mem_map] at hx
  obtain ⟨s, hs, rfl⟩ := hx
  exact h s hs

theorem moles_pos (l : List Stream) (h : ∀ s ∈ l, Valid s) (hm : (l.map (·.mass)).sum ≠ 0) :
    0 < (l.map moles).sum := by
  rcases (sum_nonneg' l moles (fun s hs => div_nonneg (h s hs).mass (h s hs).molar.le)).lt_or_eq with h1 | h1
  · exact h1
  · exfalso
    apply hm
    apply List.sum_eq_zero
    intro x hx
    rw [List.mem_map] at hx
    obtain ⟨s, hs, rfl⟩ := hx
    have h2 : moles s = 0 := (List.all_zero_of_le_zero_le_of_sum_eq_zero (l := l.map moles) (by
      intro x hx
      rw [List.mem_map] at hx
      obtain ⟨t, ht, rfl⟩ := hx
      exact div_nonneg (h t ht).mass (h t ht).molar.le) h1.symm) (List.mem_map.mpr ⟨s, hs, rfl⟩)
    unfold moles at h2
    rcases div_eq_zero_iff.mp h2 with h3 | h3
    · exact h3
    · exact absurd h3 (ne_of_gt (h s hs).molar)

theorem minPressure_le (s : Stream) (rest : List Stream) :
    (∀ t ∈ s :: rest, minPressure s rest ≤ t.props.pressure) ∧
    (∃ t ∈ s :: rest, minPressure s rest = t.props.pressure) := by
  unfold minPressure
  have main : ∀ (rest : List Stream) (a : ℚ), let m := rest.foldl (fun p t => min p t.props.pressure) a
      (m ≤ a ∧ ∀ t ∈ rest, m ≤ t.props.pressure) ∧ (m = a ∨ ∃ t ∈ rest, m = t.props.pressure) := by
    intro rest
    induction rest with
    | nil => intro a; simp
    | cons t rest ih =>
      intro a
      simp only [List.foldl_cons]
      obtain ⟨⟨h1, h2⟩, h3⟩ := ih (min a t.props.pressure)
      refine ⟨⟨le_trans h1 (min_le_left _ _), ?_⟩, ?_⟩
      · intro u hu
        rcases List.mem_cons.mp hu with rfl | hu
        · exact le_trans h1 (min_le_right _ _)
        · exact h2 u hu
      · rcases h3 with h3 | ⟨u, hu, h3⟩
        · rcases le_total a t.props.pressure with h4 | h4
          · left; rw [h3, min_eq_left h4]
          · right; exact ⟨t, by simp, by rw [h3, min_eq_right h4]⟩
        · right; exact ⟨u, by simp [hu], h3⟩
  obtain ⟨⟨h1, h2⟩, h3⟩ := main rest s.props.pressure
  constructor
  · intro t ht
    rcases List.mem_cons.mp ht with rfl | ht
    · exact h1
    · exact h2 t ht
  · rcases h3 with h3 | ⟨t, ht, h3⟩
    · exact ⟨s, by simp, h3⟩
    · exact ⟨t, by simp [ht], h3⟩

/-- Valid streams that can be mixed: what the code calculates, written with sums. -/
theorem mix_explicit (svc : Service) (s0 : Stream) (rest : List Stream) (hv : ∀ s ∈ s0 :: rest, Valid s)
    (hm : ((s0 :: rest).map (·.mass)).sum ≠ 0) (he : sameEos (s0 :: rest) = true) :
    mixStreams svc (s0 :: rest) = (svc.flashPH
        ⟨s0.model.eos, fun k => ((s0 :: rest).map fun s => molarFlow s k).sum / ((s0 :: rest).map moles).sum⟩
        (minPressure s0 rest)
        (((s0 :: rest).map fun s => s.mass * s.props.enthalpy).sum / ((s0 :: rest).map (·.mass)).sum)
        (((s0 :: rest).map fun s => s.mass * s.props.temperature).sum / ((s0 :: rest).map (·.mass)).sum)).bind fun props =>
      .ok ⟨⟨s0.model.eos, fun k => ((s0 :: rest).map fun s => molarFlow s k).sum / ((s0 :: rest).map moles).sum⟩, props,
        ((s0 :: rest).map (·.mass)).sum⟩ := by
  have hpos := moles_pos _ hv hm
  have hnn : ∀ k, 0 ≤ ((s0 :: rest).map fun s => molarFlow s k).sum / ((s0 :: rest).map moles).sum := by
    intro k
    exact div_nonneg (sum_nonneg' _ _ (fun s hs => flow_nonneg s (hv s hs) k)) hpos.le
  have htot : Composition.total (fun k => ((s0 :: rest).map fun s => molarFlow s k).sum / ((s0 :: rest).map moles).sum) = 1 := by
    rw [total_div (fun k => ((s0 :: rest).map fun s => molarFlow s k).sum), total_flows _ hv, div_self (ne_of_gt hpos)]
  have hmass : 0 ≤ ((s0 :: rest).map (·.mass)).sum := sum_nonneg' _ _ (fun s hs => (hv s hs).mass)
  have hmoles : ((s0 :: rest).map fun s => s.mass / s.props.molarMass).sum = ((s0 :: rest).map moles).sum := rfl
  unfold mixStreams
  simp only
  rw [if_neg hm, he]
  simp only [Bool.not_true, Bool.false_eq_true, if_false, Bind.bind, Except.bind]
  rw [mixMoles_valid _ hv]
  simp only
  rw [hmoles, (make_ok_iff _).mpr hnn]
  simp only
  unfold Composition.normalized
  rw [if_neg (by rw [htot]; norm_num), htot]
  simp only [div_one]
  rw [(make_ok_iff _).mpr hnn]
  simp only
  cases svc.flashPH _ _ _ _ with
  | error e => rfl
  | ok r =>
    simp only
    unfold Stream.make
    rw [if_neg (not_lt.mpr hmass)]

/-! ## The property -/

/-- **Conservation.** Mixing valid streams: the mass rate is the sum of the mass rates, the energy flow the sum of the
energy flows, and for each component the molar flow (with the total molar flow being the sum of the totals) is the sum
of its molar flows; the composition is normalised with fractions that are not negative; the pressure is the lowest of
the inlets' pressures; the equation of state is the common one. -/
theorem C42_conserves (svc : Service) (hp : LawfulPH svc) (l : List Stream) (hv : ∀ s ∈ l, Valid s) (o : Stream)
    (h : mixStreams svc l = .ok o) :
    o.mass = (l.map (·.mass)).sum ∧
    o.mass * o.props.enthalpy = (l.map fun s => s.mass * s.props.enthalpy).sum ∧
    (∀ k, (l.map moles).sum * o.model.composition k = (l.map fun s => molarFlow s k).sum) ∧
    o.model.composition.total = 1 ∧ (∀ k, 0 ≤ o.model.composition k) ∧
    ((∀ s ∈ l, o.props.pressure ≤ s.props.pressure) ∧ ∃ s ∈ l, o.props.pressure = s.props.pressure) ∧
    (∀ s ∈ l, o.model.eos = s.model.eos) := by
  cases l with
  | nil => cases h
  | cons s0 rest =>
    have hm : ((s0 :: rest).map (·.mass)).sum ≠ 0 := by
      intro hz
      unfold mixStreams at h
      simp only at h
      rw [if_pos hz] at h
      cases h
    have he : sameEos (s0 :: rest) = true := by
      by_contra hc
      rw [Bool.not_eq_true] at hc
      unfold mixStreams at h
      simp only at h
      rw [if_neg hm, hc] at h
      cases h
    rw [mix_explicit svc s0 rest hv hm he] at h
    have hpos := moles_pos _ hv hm
    cases hf : svc.flashPH
        ⟨s0.model.eos, fun k => ((s0 :: rest).map fun s => molarFlow s k).sum / ((s0 :: rest).map moles).sum⟩
        (minPressure s0 rest)
        (((s0 :: rest).map fun s => s.mass * s.props.enthalpy).sum / ((s0 :: rest).map (·.mass)).sum)
        (((s0 :: rest).map fun s => s.mass * s.props.temperature).sum / ((s0 :: rest).map (·.mass)).sum) with
    | error e => rw [hf] at h; cases h
    | ok r =>
      rw [hf] at h
      cases h
      refine ⟨rfl, ?_, ?_, ?_, ?_, ?_, ?_⟩
      · simp only
        rw [hp.enthalpy _ _ _ _ _ hf, mul_div_cancel₀ _ hm]
      · intro k
        simp only
        rw [mul_div_cancel₀ _ (ne_of_gt hpos)]
      · simp only
        rw [total_div (fun k => ((s0 :: rest).map fun s => molarFlow s k).sum), total_flows _ hv,
          div_self (ne_of_gt hpos)]
      · intro k
        exact div_nonneg (sum_nonneg' _ _ (fun s hs => flow_nonneg s (hv s hs) k)) hpos.le
      · simp only
        rw [hp.pressure _ _ _ _ _ hf]
        exact minPressure_le s0 rest
      · intro s hs
        simp only
        rcases List.mem_cons.mp hs with rfl | hs
        · rfl
        · unfold sameEos at he
          rw [List.all_eq_true] at he
          have := he s hs
          simp only [decide_eq_true_eq] at this
          exact this.symm

/-- **Errors.** No streams, no flow at all, or different equations of state are refused, in this order; with a flash
that does not fail every other mix of valid streams gives a stream. -/
theorem C42_errors (svc : Service) (l : List Stream) (hv : ∀ s ∈ l, Valid s)
    (hf : ∀ m p h g, ∃ r, svc.flashPH m p h g = .ok r) :
    (l = [] → mixStreams svc l = .error .emptyStreams) ∧
    (l ≠ [] → (∀ s ∈ l, s.mass = 0) → mixStreams svc l = .error .zeroMass) ∧
    ((∃ s ∈ l, s.mass ≠ 0) → (∃ s ∈ l, ∃ t ∈ l, s.model.eos ≠ t.model.eos) → mixStreams svc l = .error .eosMismatch) ∧
    ((∃ s ∈ l, s.mass ≠ 0) → (∀ s ∈ l, ∀ t ∈ l, s.model.eos = t.model.eos) → ∃ o, mixStreams svc l = .ok o) := by
  have hsum : (∃ s ∈ l, s.mass ≠ 0) → (l.map (·.mass)).sum ≠ 0 := by
    rintro ⟨s, hs, hne⟩ hz
    apply hne
    exact List.all_zero_of_le_zero_le_of_sum_eq_zero (l := l.map (·.mass)) (by
      intro x hx
      rw [List.mem_map] at hx
      obtain ⟨t, ht, rfl⟩ := hx
      exact (hv t ht).mass) hz (List.mem_map.mpr ⟨s, hs, rfl⟩)
  refine ⟨fun h => by subst h; rfl, ?_, ?_, ?_⟩
  · intro hl hz
    cases l with
    | nil => exact absurd rfl hl
    | cons s0 rest =>
      unfold mixStreams
      simp only
      rw [if_pos]
      apply List.sum_eq_zero
      intro x hx
      rw [List.mem_map] at hx
      obtain ⟨s, hs, rfl⟩ := hx
      exact hz s hs
  · intro hne hd
    cases l with
    | nil => obtain ⟨s, hs, -⟩ := hne; simp at hs
    | cons s0 rest =>
      unfold mixStreams
      simp only
      rw [if_neg (hsum hne)]
      have : sameEos (s0 :: rest) = false := by
        rw [Bool.eq_false_iff]
        intro hc
        obtain ⟨s, hs, t, ht, hst⟩ := hd
        unfold sameEos at hc
        rw [List.all_eq_true] at hc
        have hall : ∀ u ∈ s0 :: rest, u.model.eos = s0.model.eos := by
          intro u hu
          rcases List.mem_cons.mp hu with rfl | hu
          · rfl
          · simpa using hc u hu
        exact hst (by rw [hall s hs, hall t ht])
      rw [this]
      rfl
  · intro hne heq
    cases l with
    | nil => obtain ⟨s, hs, -⟩ := hne; simp at hs
    | cons s0 rest =>
      have he : sameEos (s0 :: rest) = true := by
        unfold sameEos
        rw [List.all_eq_true]
        intro t ht
        simp only [decide_eq_true_eq]
        exact heq t (by simp [ht]) s0 (by simp)
      rw [mix_explicit svc s0 rest hv (hsum hne) he]
      obtain ⟨r, hr⟩ := hf
        ⟨s0.model.eos, fun k => ((s0 :: rest).map fun s => molarFlow s k).sum / ((s0 :: rest).map moles).sum⟩
        (minPressure s0 rest)
        (((s0 :: rest).map fun s => s.mass * s.props.enthalpy).sum / ((s0 :: rest).map (·.mass)).sum)
        (((s0 :: rest).map fun s => s.mass * s.props.temperature).sum / ((s0 :: rest).map (·.mass)).sum)
      rw [hr]
      exact ⟨_, rfl⟩

theorem minPressure_perm (s t : Stream) (l l' : List Stream) (h : (s :: l).Perm (t :: l')) :
    minPressure s l = minPressure t l' := by
  obtain ⟨h1, u, hu, h2⟩ := minPressure_le s l
  obtain ⟨g1, v, hv, g2⟩ := minPressure_le t l'
  apply le_antisymm
  · rw [g2]
    exact h1 v (h.mem_iff.mpr hv)
  · rw [h2]
    exact g1 u (h.mem_iff.mp hu)

/-- **Order.** The result does not depend on the order of the streams. -/
theorem C42_order (svc : Service) (l l' : List Stream) (hv : ∀ s ∈ l, Valid s) (h : l.Perm l') :
    mixStreams svc l = mixStreams svc l' := by
  cases l with
  | nil => rw [List.nil_perm.mp h]
  | cons s0 rest =>
    cases l' with
    | nil => exact absurd h (by simp)
    | cons t0 rest' =>
      have hv' : ∀ s ∈ t0 :: rest', Valid s := fun s hs => hv s (h.mem_iff.mpr hs)
      have hs : ∀ f : Stream → ℚ, ((s0 :: rest).map f).sum = ((t0 :: rest').map f).sum :=
        fun f => (h.map f).sum_eq
      by_cases hm : ((s0 :: rest).map (·.mass)).sum = 0
      · unfold mixStreams
        simp only
        rw [if_pos hm, if_pos (by rw [← hs]; exact hm)]
      · have hm' : ((t0 :: rest').map (·.mass)).sum ≠ 0 := by rw [← hs]; exact hm
        have hall : ∀ (a : Stream) (b : List Stream), sameEos (a :: b) = true ↔
            ∀ u ∈ a :: b, ∀ v ∈ a :: b, u.model.eos = v.model.eos := by
          intro a b
          unfold sameEos
          rw [List.all_eq_true]
          constructor
          · intro hc
            have : ∀ u ∈ a :: b, u.model.eos = a.model.eos := by
              intro u hu
              rcases List.mem_cons.mp hu with rfl | hu
              · rfl
              · simpa using hc u hu
            intro u hu v hv
            rw [this u hu, this v hv]
          · intro hc t ht
            simp only [decide_eq_true_eq]
            exact hc t (by simp [ht]) a (by simp)
        by_cases he : sameEos (s0 :: rest) = true
        · have hx := (hall s0 rest).mp he
          have he' : sameEos (t0 :: rest') = true := by
            rw [hall]
            intro u hu v hv
            exact hx u (h.mem_iff.mpr hu) v (h.mem_iff.mpr hv)
          have heos : s0.model.eos = t0.model.eos := hx s0 (by simp) t0 (h.mem_iff.mpr (by simp))
          rw [mix_explicit svc s0 rest hv hm he, mix_explicit svc t0 rest' hv' hm' he']
          rw [minPressure_perm s0 t0 rest rest' h, heos, hs moles, hs (·.mass), hs fun s => s.mass * s.props.enthalpy,
            hs fun s => s.mass * s.props.temperature]
          have hc : (fun k => ((s0 :: rest).map fun s => molarFlow s k).sum / ((t0 :: rest').map moles).sum) =
              fun k => ((t0 :: rest').map fun s => molarFlow s k).sum / ((t0 :: rest').map moles).sum := by
            funext k
            rw [hs fun s => molarFlow s k]
          rw [hc]
        · have he' : ¬ sameEos (t0 :: rest') = true := by
            intro hc
            apply he
            have hx := (hall t0 rest').mp hc
            rw [hall]
            intro u hu v hv
            exact hx u (h.mem_iff.mp hu) v (h.mem_iff.mp hv)
          rw [Bool.not_eq_true] at he he'
          unfold mixStreams
          simp only
          rw [if_neg hm, if_neg hm', he, he', if_pos (by simp), if_pos (by simp)]

/-- **Side stream.** The mixer unit mixes the stream through it with the one set before, and refuses to work without
one. -/
theorem C42_mixer (svc : Service) (hp : LawfulPH svc) (s e : Stream) (hs : Valid s) (he : Valid e) :
    mixer svc none s = .error .value ∧ (∀ o, mixer svc (some e) s = .ok o →
      o.mass = s.mass + e.mass ∧ o.props.pressure = min s.props.pressure e.props.pressure ∧
      o.mass * o.props.enthalpy = s.mass * s.props.enthalpy + e.mass * e.props.enthalpy) := by
  refine ⟨rfl, ?_⟩
  intro o h
  have hv : ∀ t ∈ [s, e], Valid t := by
    intro t ht
    simp only [List.mem_cons, List.not_mem_nil, or_false] at ht
    rcases ht with rfl | rfl
    · exact hs
    · exact he
  obtain ⟨h1, h2, -, -, -, ⟨h3, t, ht, h4⟩, -⟩ := C42_conserves svc hp [s, e] hv o h
  simp only [List.map_cons, List.map_nil, List.sum_cons, List.sum_nil, add_zero] at h1 h2
  refine ⟨h1, ?_, h2⟩
  apply le_antisymm
  · exact le_min (h3 s (by simp)) (h3 e (by simp))
  · rw [h4]
    simp only [List.mem_cons, List.not_mem_nil, or_false] at ht
    rcases ht with rfl | rfl
    · exact min_le_left _ _
    · exact min_le_right _ _

/-! ## Examples -/

def idealPH : Service := { C40.ideal with
  flashPH := fun _ p h t => .ok ⟨t, p, p / t, h, 1, 1, 4 / 5⟩ }

theorem idealPH_lawful : LawfulPH idealPH where
  pressure := by intro m p h g r hr; cases hr; rfl
  enthalpy := by intro m p h g r hr; cases hr; rfl

def methane : Stream := ⟨⟨.SRK, fun k => if k = .methane then 1 else 0⟩, ⟨300, 50, 1, 10, 1, 16, 4 / 5⟩, 160⟩
def ethane : Stream := ⟨⟨.SRK, fun k => if k = .ethane then 2 else 0⟩, ⟨320, 40, 1, 30, 1, 30, 4 / 5⟩, 900⟩

example : ((mixStreams idealPH [methane, ethane]).map fun o =>
    (o.mass, o.props.pressure, o.props.enthalpy, o.model.composition .methane, o.model.composition .ethane)) =
    .ok (1060, 40, (160 * 10 + 900 * 30) / 1060, 1 / 4, 3 / 4) := by decide +kernel
example : ((mixStreams idealPH [methane, { ethane with model := { ethane.model with eos := .PR } }]).map (·.mass)) =
    .error .eosMismatch := by decide +kernel
example : Valid ethane := ⟨by decide +kernel, by decide +kernel, by intro k; cases k <;> decide +kernel, by decide +kernel⟩

end Verif.C42
