import Mathlib.Analysis.SpecialFunctions.Log.Basic
import Verif.Model.Prepare
import Verif.Props.C64
import Verif.Props.C84

/-! # C95 — A simplified compressor train made from operational data fits this data -/

namespace Verif.C95
open Verif.Outlet Verif.Charts Verif.Simplified Verif.Prepare Verif.Time Verif.C64 Verif.C84

/-! ## The number of stages -/

theorem largest_spec (x : ℝ) (xs : List ℝ) : largest x xs ∈ x :: xs ∧ ∀ y ∈ x :: xs, y ≤ largest x xs := by
  unfold largest
  induction xs generalizing x with
  | nil => simp
  | cons a t ih =>
    obtain ⟨h1, h2⟩ := ih (max x a)
    rw [List.foldl_cons]
    constructor
    · rcases List.mem_cons.1 h1 with h | h
      · rw [h]
        rcases max_choice x a with e | e <;> simp [e]
      · simp [h]
    · intro y hy
      have hm := h2 (max x a) (by simp)
      rcases List.mem_cons.1 hy with rfl | hy
      · exact le_trans (le_max_left _ _) hm
      · rcases List.mem_cons.1 hy with rfl | hy
        · exact le_trans (le_max_right _ _) hm
        · exact h2 y (by simp [hy])

/-- A ratio is at most `R` per stage exactly when its logarithm is at most that of `R` times the number of stages. -/
theorem ratio_le {s d R : ℝ} (hs : 0 < s) (hd : 0 < d) (hR : 1 < R) {n : ℕ} (hn : 1 ≤ n) :
    Campbell.ratioPerStage s d n ≤ R ↔ Real.log (d / s) / Real.log R ≤ n := by
  have hn' : (0 : ℝ) < n := by exact_mod_cast hn
  have hq : 0 < d / s := div_pos hd hs
  have hl : 0 < Real.log R := Real.log_pos hR
  unfold Campbell.ratioPerStage
  rw [← Real.log_le_log_iff (Real.rpow_pos_of_pos hq _) (by linarith), Real.log_rpow hq, div_le_iff₀ hl, one_div,
    inv_mul_le_iff₀ hn']

/-- The steps of `numberOfStages` for positive pressures. -/
theorem stages_eq {R : ℝ} (hR : 1 < R) {steps : List (ℝ × ℝ)} (hne : steps ≠ []) (hpos : ∀ s ∈ steps, 0 < s.1 ∧ 0 < s.2) :
    ∃ s ∈ steps, (∀ t ∈ steps, t.2 / t.1 ≤ s.2 / s.1) ∧
      numberOfStages R steps = .ok ⌈Real.log (s.2 / s.1) / Real.log R⌉ := by
  cases steps with
  | nil => exact absurd rfl hne
  | cons a t =>
    obtain ⟨h1, h2⟩ := largest_spec (a.2 / a.1) (t.map fun s => s.2 / s.1)
    rw [← List.map_cons (f := fun s : ℝ × ℝ => s.2 / s.1)] at h1 h2
    obtain ⟨s, hs, he⟩ := List.mem_map.1 h1
    refine ⟨s, hs, fun x hx => ?_, ?_⟩
    · rw [he]
      exact h2 _ (List.mem_map_of_mem hx)
    · have hp := hpos s hs
      unfold numberOfStages
      simp only [List.map_cons]
      rw [if_neg, if_neg, if_neg, ← he]
      · exact (Real.log_pos hR).ne'
      · rw [← he]
        have := div_pos hp.2 hp.1
        rintro (h | h) <;> linarith
      · rintro ⟨x, hx, h0⟩
        exact (hpos x hx).1.ne' h0

/-- **As many stages as needed, and no more.** For any positive pressures of which some are to be raised: the number of
stages is at least one, no stage of any time step has a pressure ratio above the maximum, and with any smaller number
some time step would. -/
theorem C95_stages (R : ℝ) (hR : 1 < R) (steps : List (ℝ × ℝ)) (hpos : ∀ s ∈ steps, 0 < s.1 ∧ 0 < s.2)
    (hup : ∃ s ∈ steps, s.1 < s.2) :
    ∃ (n : ℕ) (ratios : List ℝ), preparedRatios R steps = .ok (n, ratios) ∧ 1 ≤ n ∧
      ratios.length = steps.length ∧ (∀ r ∈ ratios, r ≤ R) ∧
      ∀ m : ℕ, 1 ≤ m → m < n → ∃ s ∈ steps, R < Campbell.ratioPerStage s.1 s.2 m := by
  obtain ⟨u, hu, hud⟩ := hup
  obtain ⟨s, hs, hmax, hn⟩ := stages_eq hR (List.ne_nil_of_mem hu) hpos
  have hl : 0 < Real.log R := Real.log_pos hR
  have h1 : 1 < s.2 / s.1 := lt_of_lt_of_le ((one_lt_div (hpos u hu).1).2 hud) (hmax u hu)
  have hx : 0 < Real.log (s.2 / s.1) / Real.log R := div_pos (Real.log_pos h1) hl
  set c := ⌈Real.log (s.2 / s.1) / Real.log R⌉ with hc
  have hc0 : 0 < c := Int.ceil_pos.2 hx
  have hcn : ((c.toNat : ℕ) : ℤ) = c := Int.toNat_of_nonneg hc0.le
  have hcr : ((c.toNat : ℕ) : ℝ) = (c : ℝ) := by exact_mod_cast congrArg (Int.cast : ℤ → ℝ) hcn
  have hn1 : 1 ≤ c.toNat := by omega
  refine ⟨c.toNat, steps.map fun s => Campbell.ratioPerStage s.1 s.2 c.toNat, ?_, hn1, by simp, ?_, ?_⟩
  · unfold preparedRatios
    rw [hn]
    simp only
    rw [if_neg (by omega)]
  · intro r hr
    obtain ⟨t, ht, rfl⟩ := List.mem_map.1 hr
    rw [ratio_le (hpos t ht).1 (hpos t ht).2 hR hn1, hcr]
    refine le_trans ?_ (Int.le_ceil _)
    exact (div_le_div_iff_of_pos_right hl).2
      (Real.log_le_log (div_pos (hpos t ht).2 (hpos t ht).1) (hmax t ht))
  · intro m hm hmn
    refine ⟨s, hs, ?_⟩
    rw [← not_le, ratio_le (hpos s hs).1 (hpos s hs).2 hR hm, not_le]
    have : ((m : ℤ)) < c := by omega
    have := Int.lt_ceil.1 this
    exact_mod_cast this

/-- **From suction to discharge.** The pressures of the stages start at the suction pressure, each stage starts where
the one before ends, all have the same ratio, and the last ends at the discharge pressure. -/
theorem C95_ladder (s d : ℝ) (hs : 0 < s) (hd : 0 < d) (n : ℕ) (hn : 1 ≤ n) :
    let l := ladder (Campbell.ratioPerStage s d n) n s
    l.length = n ∧ l.head?.map (·.1) = some s ∧ l.getLast?.map (·.2) = some d ∧
      (∀ x ∈ l, x.2 / x.1 = Campbell.ratioPerStage s d n) ∧
      ∀ k x y, l[k]? = some x → l[k + 1]? = some y → y.1 = x.2 := by
  have hq : 0 < d / s := div_pos hd hs
  have hr : 0 < Campbell.ratioPerStage s d n := Real.rpow_pos_of_pos hq _
  have hpow : s * Campbell.ratioPerStage s d n ^ n = d := by
    unfold Campbell.ratioPerStage
    rw [← Real.rpow_natCast, ← Real.rpow_mul hq.le, one_div, inv_mul_cancel₀ (by positivity), Real.rpow_one]
    field_simp
  generalize Campbell.ratioPerStage s d n = r at hr hpow
  have hlen : ∀ n p, (ladder r n p).length = n := by
    intro n
    induction n with
    | zero => intro p; rfl
    | succ n ih => intro p; simp [ladder, ih]
  have hget : ∀ n p k, k < n → (ladder r n p)[k]? = some (p * r ^ k, p * r ^ (k + 1)) := by
    intro n
    induction n with
    | zero => intro p k hk; omega
    | succ n ih =>
      intro p k hk
      cases k with
      | zero => simp [ladder]
      | succ k =>
        rw [ladder, List.getElem?_cons_succ, ih _ k (by omega)]
        congr 2 <;> ring
  refine ⟨hlen n s, ?_, ?_, ?_, ?_⟩
  · cases n with
    | zero => omega
    | succ n => rfl
  · rw [List.getLast?_eq_getElem?, hlen, hget n s (n - 1) (by omega), Option.map_some, Nat.sub_add_cancel hn, hpow]
  · intro x hx
    obtain ⟨k, hk⟩ := List.mem_iff_getElem?.1 hx
    have hkn : k < n := by
      rw [← hlen n s]
      exact (List.getElem?_eq_some_iff.1 hk).1
    rw [hget n s k hkn] at hk
    cases Option.some.inj hk
    have : 0 < s * r ^ k := by positivity
    rw [div_eq_iff this.ne']
    ring
  · intro k x y hx hy
    have hkn : k + 1 < n := by
      rw [← hlen n s]
      exact (List.getElem?_eq_some_iff.1 hy).1
    rw [hget n s k (by omega)] at hx
    rw [hget n s (k + 1) hkn] at hy
    cases Option.some.inj hx
    cases Option.some.inj hy
    rfl

/-- FINDING: a train whose discharge pressure never exceeds its suction pressure, for example because it does not run,
cannot be prepared: it would have no stages, which is a ValueError when the file is read. -/
theorem C95_no_compression (R : ℝ) (hR : 1 < R) (steps : List (ℝ × ℝ)) (hne : steps ≠ [])
    (hpos : ∀ s ∈ steps, 0 < s.1 ∧ 0 < s.2) (hdown : ∀ s ∈ steps, s.2 ≤ s.1) :
    preparedRatios R steps = .error .noStages := by
  obtain ⟨s, hs, -, hn⟩ := stages_eq hR hne hpos
  have hp := hpos s hs
  have h1 : Real.log (s.2 / s.1) ≤ 0 :=
    Real.log_nonpos (div_pos hp.2 hp.1).le ((div_le_one hp.1).2 (hdown s hs))
  have h2 : ⌈Real.log (s.2 / s.1) / Real.log R⌉ ≤ 0 :=
    Int.ceil_le.2 (by rw [Int.cast_zero]; exact div_nonpos_of_nonpos_of_nonneg h1 (Real.log_pos hR).le)
  unfold preparedRatios
  rw [hn]
  simp only
  rw [if_pos (by omega)]

/-- FINDING: MAXIMUM_PRESSURE_RATIO_PER_STAGE is not checked: 1 is a division by zero, less than 1 gives no stages. -/
theorem C95_maximum (R : ℝ) (hR : 0 < R ∧ R ≤ 1) (steps : List (ℝ × ℝ)) (hpos : ∀ s ∈ steps, 0 < s.1 ∧ 0 < s.2)
    (hup : ∃ s ∈ steps, s.1 < s.2) :
    preparedRatios R steps = .error (if R = 1 then .zeroDivision else .noStages) := by
  obtain ⟨u, hu, hud⟩ := hup
  cases steps with
  | nil => simp at hu
  | cons a t =>
    obtain ⟨h1, h2⟩ := largest_spec (a.2 / a.1) (t.map fun s => s.2 / s.1)
    rw [← List.map_cons (f := fun s : ℝ × ℝ => s.2 / s.1)] at h1 h2
    have hL : 1 < largest (a.2 / a.1) (t.map fun s => s.2 / s.1) :=
      lt_of_lt_of_le ((one_lt_div (hpos u hu).1).2 hud) (h2 _ (List.mem_map_of_mem hu))
    have hz : ¬∃ s ∈ a :: t, s.1 = 0 := by
      rintro ⟨x, hx, h0⟩
      exact (hpos x hx).1.ne' h0
    have hdom : ¬(largest (a.2 / a.1) (t.map fun s => s.2 / s.1) ≤ 0 ∨ R ≤ 0) := by
      rintro (h | h) <;> linarith [hR.1]
    unfold preparedRatios numberOfStages
    simp only [List.map_cons]
    rw [if_neg hz, if_neg hdom]
    by_cases h : R = 1
    · subst h
      rw [if_pos Real.log_one, if_pos rfl]
    · have hneg : Real.log R < 0 := Real.log_neg hR.1 (lt_of_le_of_ne hR.2 h)
      rw [if_neg hneg.ne, if_neg h]
      have h2 : ⌈Real.log (largest (a.2 / a.1) (t.map fun s => s.2 / s.1)) / Real.log R⌉ ≤ 0 :=
        Int.ceil_le.2 (by
          rw [Int.cast_zero]
          exact div_nonpos_of_nonneg_of_nonpos (Real.log_pos hL).le hneg.le)
      simp only
      rw [if_pos (by omega)]

/-- FINDING: one time step without suction pressure, whether the train runs in it or not, refuses the whole train. -/
theorem C95_zero_suction (R : ℝ) (steps : List (ℝ × ℝ)) (h : ∃ s ∈ steps, s.1 = 0) :
    preparedRatios R steps = .error .overflow := by
  cases steps with
  | nil => simp at h
  | cons a t =>
    unfold preparedRatios numberOfStages
    simp only [List.map_cons]
    rw [if_pos h]

/-- Pressures 10 to 70 bara with at most 3 per stage: two stages, as 3 < 7 ≤ 9. -/
example : ∃ ratios, preparedRatios 3 [(10, 20), (10, 70)] = .ok (2, ratios) := by
  obtain ⟨n, ratios, h1, h2, h3, h4, h5⟩ := C95_stages 3 (by norm_num) [(10, 20), (10, 70)] (by simp) ⟨(10, 70), by simp, by norm_num⟩
  refine ⟨ratios, ?_⟩
  have hr : ∀ m : ℕ, 1 ≤ m → (Campbell.ratioPerStage 10 70 m ≤ 3 ↔ (7 : ℝ) ≤ 3 ^ m) := by
    intro m hm
    have hm' : (0 : ℝ) < m := by exact_mod_cast hm
    rw [ratio_le (by norm_num) (by norm_num) (by norm_num) hm, div_le_iff₀ (Real.log_pos (by norm_num)),
      ← Real.log_pow, Real.log_le_log_iff (by norm_num) (by positivity)]
    norm_num
  have hn2 : n ≤ 2 := by
    by_contra hc
    obtain ⟨s, hs, hlt⟩ := h5 2 (by norm_num) (by omega)
    simp only [List.mem_cons, List.not_mem_nil, or_false] at hs
    rcases hs with rfl | rfl
    · have : Campbell.ratioPerStage 10 20 2 ≤ 3 := by
        rw [ratio_le (by norm_num) (by norm_num) (by norm_num) (by norm_num), div_le_iff₀ (Real.log_pos (by norm_num)),
          ← Real.log_pow, Real.log_le_log_iff (by norm_num) (by positivity)]
        norm_num
      linarith
    · have := (hr 2 (by norm_num)).2 (by norm_num)
      linarith
  have hn1 : n ≠ 1 := by
    rintro rfl
    have hm : Campbell.ratioPerStage 10 70 1 ∈ ratios := by
      unfold preparedRatios at h1
      split at h1
      · cases h1
      · split at h1
        · cases h1
        · have h1 := Except.ok.inj h1
          simp only [Prod.mk.injEq] at h1
          rw [← h1.2, h1.1]
          simp
    have := (hr 1 le_rfl).1 (h4 _ hm)
    norm_num at this
  rw [h1, show n = 2 by omega]

/-! ## Charts from input -/

/-- A gas with sound properties: flashes at positive pressures succeed, densities are positive, the standard density is
that of the gas, and raising the pressure takes a positive head. -/
structure Gas (th : Thermo) (D : ℚ) : Prop where
  honest : Honest th
  pt : ∀ p t, 0 < p → ∃ s, th.flashPT p t = some s ∧ 0 < s.density ∧ s.stdDensity = D
  ph : ∀ p h, 0 < p → ∃ s, th.flashPH p h = some s
  standard : 0 < D
  head : ∀ e k z r t, 0 < e → 1 < r → 0 < th.head e k z r t

theorem mapM_idx {α β ε : Type} (g : α → Except ε β) (l : List α) (r : List β) (h : l.mapM g = .ok r) :
    r.length = l.length ∧ ∀ (k : ℕ) (a : α) (b : β), l[k]? = some a → r[k]? = some b → g a = .ok b := by
  induction l generalizing r with
  | nil =>
    rw [List.mapM_nil] at h
    cases h
    exact ⟨rfl, fun k a b ha => by simp at ha⟩
  | cons x t ih =>
    rw [List.mapM_cons] at h
    rcases hx : g x with e | y
    · rw [hx] at h
      exact absurd h (by simp [Bind.bind, Except.bind])
    · rcases ht : t.mapM g with e | ys
      · rw [hx, ht] at h
        exact absurd h (by simp [Bind.bind, Except.bind])
      · rw [hx, ht] at h
        cases Except.ok.inj h
        obtain ⟨h1, h2⟩ := ih ys ht
        refine ⟨by simp [h1], fun k a b ha hb => ?_⟩
        cases k with
        | zero =>
          cases ha
          cases hb
          exact hx
        | succ k => exact h2 k a b (by simpa using ha) (by simpa using hb)

theorem mapM_total {α β ε : Type} (g : α → Except ε β) (l : List α) (h : ∀ a ∈ l, ∃ b, g a = .ok b) :
    ∃ r, l.mapM g = .ok r := by
  induction l with
  | nil => exact ⟨[], by rw [List.mapM_nil]; rfl⟩
  | cons x t ih =>
    obtain ⟨b, hb⟩ := h x (by simp)
    obtain ⟨r, hr⟩ := ih fun a ha => h a (by simp [ha])
    exact ⟨b :: r, by rw [List.mapM_cons, hb, hr]; rfl⟩

/-- One stream of the iteration can be raised. -/
def Proper (x : Elem) : Prop := 0 < x.out ∧ 1 < x.out / x.inlet.pressure

theorem next_spec {th : Thermo} {D eff : ℚ} (hg : Gas th D) (x : Elem) (hx : Proper x) :
    ∃ s, x.next th eff = .ok ⟨x.inlet, x.out, th.head eff x.kappa x.z (x.out / x.inlet.pressure) x.inlet.temperature,
      (x.inlet.z + s.z) / 2, (x.inlet.kappa + s.kappa) / 2⟩ ∧
      th.flashPH x.out (x.inlet.enthalpy +
        th.head eff x.kappa x.z (x.out / x.inlet.pressure) x.inlet.temperature / eff) = some s := by
  obtain ⟨s, hs⟩ := hg.ph x.out (x.inlet.enthalpy +
    th.head eff x.kappa x.z (x.out / x.inlet.pressure) x.inlet.temperature / eff) hx.1
  refine ⟨s, ?_, hs⟩
  unfold Elem.next
  simp only [hs, plain]

/-- The two iterations agree: the heads of which the chart is made are those found when the stage is run. -/
def Agrees (th : Thermo) (eff : ℚ) (xs : List Elem) : Prop :=
  ∃ ys, manyLoop th eff 20 xs = .ok ys ∧ ys.length = xs.length ∧
    ∀ (k : ℕ) (x y : Elem), xs[k]? = some x → ys[k]? = some y → 0 < y.head ∧
      ∀ rate, ∃ b, headIteration th (fun _ _ => eff) x.inlet rate x.out = .ok (y.head / eff, eff, b)

/-! ### One time step -/

theorem close_one (a h : ℚ) : closeAll [a] [h] = closeHeads a h := by
  unfold closeAll closeHeads normSq
  simp only [List.map_cons, List.map_nil, List.sum_cons, List.sum_nil, add_zero, List.zipWith_cons_cons,
    List.zipWith_nil_right]
  by_cases ha : a = 0
  · simp [ha]
  · have h1 : a * a ≠ 0 := mul_ne_zero ha ha
    have h2 : 0 < |a| := abs_pos.2 ha
    congr 1
    · simp [ha]
    · rw [decide_eq_decide, div_lt_iff₀ h2]
      have e : a * a * (1 / 1000) ^ 2 = (1 / 1000 * a) ^ 2 := by ring
      rw [e, ← sq, sq_lt_sq, abs_mul, abs_of_pos (show (0 : ℚ) < 1 / 1000 by norm_num)]

theorem one_loop {th : Thermo} {D eff : ℚ} (hg : Gas th D) (he : 0 < eff) (rate : ℚ) (n : ℕ) (x : Elem) (hx : Proper x)
    (hh : n = 0 → 0 < x.head) : ∃ y b, manyLoop th eff n [x] = .ok [y] ∧ 0 < y.head ∧
      headLoop th (fun _ _ => eff) x.inlet rate x.out n x.head x.z x.kappa (x.head / eff) eff =
        .ok (y.head / eff, eff, b) := by
  induction n generalizing x with
  | zero => exact ⟨x, false, rfl, hh rfl, rfl⟩
  | succ n ih =>
    obtain ⟨s, h1, h2⟩ := next_spec (eff := eff) hg x hx
    have hpos := hg.head eff x.kappa x.z (x.out / x.inlet.pressure) x.inlet.temperature he hx.2
    set h := th.head eff x.kappa x.z (x.out / x.inlet.pressure) x.inlet.temperature with hdef
    have hm : [x].mapM (Elem.next th eff) = .ok [⟨x.inlet, x.out, h, (x.inlet.z + s.z) / 2,
        (x.inlet.kappa + s.kappa) / 2⟩] := by
      rw [List.mapM_cons, h1, List.mapM_nil]
      rfl
    unfold manyLoop headLoop
    simp only [hm, List.map_cons, List.map_nil, close_one, ← hdef, h2, plain]
    by_cases hc : closeHeads x.head h = true
    · rw [if_pos hc, if_pos hc]
      exact ⟨_, true, rfl, hpos, rfl⟩
    · rw [if_neg hc, if_neg hc]
      exact ih ⟨x.inlet, x.out, h, (x.inlet.z + s.z) / 2, (x.inlet.kappa + s.kappa) / 2⟩ hx fun _ => hpos

theorem one_agrees {th : Thermo} {D eff : ℚ} (hg : Gas th D) (he : 0 < eff) (x : Elem) (hx : Proper x) (h0 : x.head = 0)
    (hz : x.z = x.inlet.z) (hk : x.kappa = x.inlet.kappa) : Agrees th eff [x] := by
  obtain ⟨y, -, h1, hp, -⟩ := one_loop hg he 0 20 x hx (by simp)
  refine ⟨[y], h1, rfl, ?_⟩
  intro k x' y' hx' hy'
  cases k with
  | succ k => simp at hx'
  | zero =>
    cases hx'
    cases hy'
    refine ⟨hp, fun rate => ?_⟩
    obtain ⟨y', b, h1', -, h2⟩ := one_loop hg he rate 20 x hx (by simp)
    rw [h1] at h1'
    cases Except.ok.inj h1'
    refine ⟨b, ?_⟩
    rw [h0, zero_div, hz, hk] at h2
    exact h2

/-! ### A head that does not depend on the state of the gas -/

/-- The head depends on efficiency, ratio and temperature only. -/
def Uniform (th : Thermo) : Prop := ∀ e k z k' z' r t, th.head e k z r t = th.head e k' z' r t

theorem normSq_self (l : List ℚ) : normSq (List.zipWith (fun a b => a - b) l l) = 0 := by
  unfold normSq
  induction l with
  | nil => rfl
  | cons a t ih => simp

theorem normSq_pos (l : List ℚ) (hne : l ≠ []) (h : ∀ x ∈ l, 0 < x) : 0 < normSq l := by
  unfold normSq
  refine List.sum_pos _ ?_ (by simpa using hne)
  intro y hy
  obtain ⟨x, hx, rfl⟩ := List.mem_map.1 hy
  exact mul_pos (h x hx) (h x hx)

theorem normSq_zeros (l : List ℚ) (h : ∀ x ∈ l, x = 0) : normSq l = 0 := by
  unfold normSq
  induction l with
  | nil => rfl
  | cons a t ih =>
    rw [List.map_cons, List.sum_cons, ih fun x hx => h x (by simp [hx]), h a (by simp)]
    ring

theorem pass_spec {th : Thermo} {D eff : ℚ} (hg : Gas th D) (xs : List Elem) (hx : ∀ x ∈ xs, Proper x) :
    ∃ ys, xs.mapM (Elem.next th eff) = .ok ys ∧ ys.length = xs.length ∧
      ∀ (k : ℕ) (x y : Elem), xs[k]? = some x → ys[k]? = some y → y.inlet = x.inlet ∧ y.out = x.out ∧
        y.head = th.head eff x.kappa x.z (x.out / x.inlet.pressure) x.inlet.temperature := by
  obtain ⟨ys, hy⟩ := mapM_total (Elem.next th eff) xs fun x h => by
    obtain ⟨s, h1, -⟩ := next_spec (eff := eff) hg x (hx x h)
    exact ⟨_, h1⟩
  obtain ⟨h1, h2⟩ := mapM_idx _ _ _ hy
  refine ⟨ys, hy, h1, fun k x y hxk hyk => ?_⟩
  obtain ⟨s, h3, -⟩ := next_spec (eff := eff) hg x (hx x (List.mem_of_getElem? hxk))
  rw [h2 k x y hxk hyk] at h3
  rw [Except.ok.inj h3]
  exact ⟨rfl, rfl, rfl⟩

theorem idx_of {α β : Type} {xs : List α} {ys : List β} (hl : ys.length = xs.length) {k : ℕ} {y : β} (hy : ys[k]? = some y) :
    ∃ x, xs[k]? = some x := by
  have : k < xs.length := by
    rw [← hl]
    exact (List.getElem?_eq_some_iff.1 hy).1
  exact ⟨_, List.getElem?_eq_getElem this⟩

theorem uniform_agrees {th : Thermo} {D eff : ℚ} (hg : Gas th D) (hu : Uniform th) (he : 0 < eff) (xs : List Elem)
    (hne : xs ≠ []) (hx : ∀ x ∈ xs, Proper x) (h0 : ∀ x ∈ xs, x.head = 0) : Agrees th eff xs := by
  obtain ⟨ys, y1, y2, y3⟩ := pass_spec (eff := eff) hg xs hx
  have hy : ∀ y ∈ ys, Proper y := by
    intro y hm
    obtain ⟨k, hk⟩ := List.mem_iff_getElem?.1 hm
    obtain ⟨x, hxk⟩ := idx_of y2 hk
    obtain ⟨e1, e2, -⟩ := y3 k x y hxk hk
    unfold Proper
    rw [e1, e2]
    exact hx x (List.mem_of_getElem? hxk)
  obtain ⟨zs, z1, z2, z3⟩ := pass_spec (eff := eff) hg ys hy
  have hyp : ∀ y ∈ ys, 0 < y.head := by
    intro y hm
    obtain ⟨k, hk⟩ := List.mem_iff_getElem?.1 hm
    obtain ⟨x, hxk⟩ := idx_of y2 hk
    rw [(y3 k x y hxk hk).2.2]
    exact hg.head _ _ _ _ _ he (hx x (List.mem_of_getElem? hxk)).2
  have hsame : zs.map (·.head) = ys.map (·.head) := by
    refine List.ext_getElem? fun k => ?_
    rw [List.getElem?_map, List.getElem?_map]
    rcases hk : zs[k]? with _ | z
    · have : ys[k]? = none := by
        rw [List.getElem?_eq_none_iff] at hk ⊢
        omega
      rw [this]
    · obtain ⟨y, hyk⟩ := idx_of z2 hk
      obtain ⟨x, hxk⟩ := idx_of y2 hyk
      obtain ⟨a1, a2, a3⟩ := z3 k y z hyk hk
      obtain ⟨b1, b2, b3⟩ := y3 k x y hxk hyk
      rw [hyk]
      simp only [Option.map_some]
      rw [a3, b3, b1, b2, hu]
  have hyne : ys ≠ [] := by
    intro h
    rw [h] at y2
    exact hne (List.length_eq_zero_iff.1 y2.symm)
  have c0 : closeAll (xs.map (·.head)) (ys.map (·.head)) = false := by
    unfold closeAll
    rw [normSq_zeros (xs.map (·.head)) (by simpa using h0)]
    simp
  have c1 : closeAll (ys.map (·.head)) (zs.map (·.head)) = true := by
    have hp := normSq_pos (ys.map (·.head)) (by simpa using hyne) (by simpa using hyp)
    unfold closeAll
    rw [hsame, normSq_self, Bool.and_eq_true, decide_eq_true_eq, decide_eq_true_eq]
    exact ⟨hp.ne', by positivity⟩
  have hloop : manyLoop th eff 20 xs = .ok zs := by
    unfold manyLoop
    simp only [y1, c0, Bool.false_eq_true, if_false]
    unfold manyLoop
    simp only [z1, c1, if_true]
  refine ⟨zs, hloop, by omega, fun k x z hxk hzk => ?_⟩
  obtain ⟨y, hyk⟩ := idx_of z2 hzk
  have hz : z.head = y.head := by
    have := congrArg (fun l => l[k]?) hsame
    simpa [List.getElem?_map, hzk, hyk] using this
  obtain ⟨b1, b2, b3⟩ := y3 k x y hxk hyk
  have hxp := hx x (List.mem_of_getElem? hxk)
  have hpos : 0 < z.head := by
    rw [hz]
    exact hyp y (List.mem_of_getElem? hyk)
  refine ⟨hpos, fun rate => ⟨true, ?_⟩⟩
  have hH : ∀ k' z', th.head eff k' z' (x.out / x.inlet.pressure) x.inlet.temperature = z.head := by
    intro k' z'
    rw [hz, b3, hu]
  obtain ⟨s, hs⟩ := hg.ph x.out (x.inlet.enthalpy + z.head / eff) hxp.1
  have d0 : closeHeads 0 z.head = false := by simp [closeHeads]
  have d1 : closeHeads z.head z.head = true := by simp [closeHeads, hpos.ne']
  unfold headIteration headLoop
  simp only [hH, hs, plain, d0, Bool.false_eq_true, if_false]
  unfold headLoop
  simp only [hH, hs, plain, d1, if_true]

/-! ### A stage -/

theorem largest_exists (l : List ℚ) (x : ℚ) (hx : x ∈ l) (h0 : 0 < x) : ∃ m, Largest m l ∧ 0 < m := by
  have : ∀ t : List ℚ, t ≠ [] → ∃ m ∈ t, ∀ y ∈ t, y ≤ m := by
    intro t
    induction t with
    | nil => exact fun h => absurd rfl h
    | cons a t ih =>
      intro _
      by_cases ht : t = []
      · exact ⟨a, by simp, by simp [ht]⟩
      · obtain ⟨m, hm, hmax⟩ := ih ht
        rcases le_total a m with h | h
        · refine ⟨m, by simp [hm], fun y hy => ?_⟩
          rcases List.mem_cons.1 hy with rfl | hy
          exacts [h, hmax y hy]
        · refine ⟨a, by simp, fun y hy => ?_⟩
          rcases List.mem_cons.1 hy with rfl | hy
          exacts [le_refl _, (hmax y hy).trans h]
  obtain ⟨m, hm, hmax⟩ := this l (List.ne_nil_of_mem hx)
  exact ⟨m, ⟨hm, hmax⟩, lt_of_lt_of_le h0 (hmax x hx)⟩

/-- Time steps in which gas can be compressed. -/
def Sound (s : Step) : Prop := 0 < s.pressure ∧ 1 < s.ratio ∧ 0 ≤ s.rate

theorem stage_eval {th : Thermo} {D : ℚ} (hg : Gas th D) (st : SStage) (eff p ratio mass head : ℚ) (he : 0 < eff)
    (heff : st.efficiency = fun _ _ => eff) (hp : 0 < p) (hr : 1 < ratio) (hm : 0 < mass) (inlet : State)
    (hin : th.flashPT p st.temperature = some inlet)
    (hi : ∃ b, headIteration th (fun _ _ => eff) inlet (mass / inlet.density) (p * ratio) = .ok (head / eff, eff, b))
    (hc : (st.chart.capacity (mass / inlet.density) head true).exceeds = false) :
    ∃ r, evalStage th st p mass ratio true = .ok r ∧ r.valid = true ∧ r.outlet.pressure = p * ratio := by
  obtain ⟨b, hi⟩ := hi
  have hpr : 0 < p * ratio := mul_pos hp (by linarith)
  have hh : head / eff * eff = head := div_mul_cancel₀ _ he.ne'
  obtain ⟨o, ho⟩ := hg.ph (p * ratio)
    (inlet.enthalpy + (st.chart.capacity (mass / inlet.density) head true).head / eff) hpr
  have hev : ∃ r, evalStage th st p mass ratio true = .ok r ∧ r.valid = true ∧ r.outlet = o := by
    have hcor : corrections th st inlet mass (p * ratio) true =
        .ok ((st.chart.capacity (mass / inlet.density) head true).head / eff,
          (st.chart.capacity (mass / inlet.density) head true).rate * inlet.density, head / eff, some eff,
          st.chart.capacity (mass / inlet.density) head true) := by
      unfold corrections
      rw [if_pos hm, heff, hi]
      simp only [if_true, hh]
    unfold evalStage
    simp only [hin, plain, hcor, ho]
    refine ⟨_, rfl, ?_, rfl⟩
    simp [hc]
  obtain ⟨r, h1, h2, h3⟩ := hev
  exact ⟨r, h1, h2, by rw [h3]; exact (hg.honest.ph _ _ _ ho).1⟩

/-- The chart of a stage can be made, and the stage runs at each of the time steps it was made from. -/
theorem stage_fits {th : Thermo} {D : ℚ} (hg : Gas th D) (fuel : ℕ) (hf : 60 ≤ fuel) (T eff : ℚ) (he : 0 < eff ∧ eff ≤ 1)
    (steps : List Step) (hs : ∀ s ∈ steps, Sound s) (hpos : ∃ s ∈ steps, 0 < s.rate)
    (hag : ∀ inlets, steps.mapM (inletStream th T) = .ok inlets →
      Agrees th eff (List.zipWith (fun s x => startElem s x.1) steps inlets)) :
    ∃ c, stageChart th fuel ⟨T, eff, none⟩ steps = .ok c ∧ ∀ s ∈ steps, 0 < s.rate →
      ∃ r, evalStage th ⟨T, c, fun _ _ => eff⟩ s.pressure (s.rate * D / 24) s.ratio true = .ok r ∧ r.valid = true ∧
        r.outlet.pressure = s.pressure * s.ratio := by
  obtain ⟨inlets, hin⟩ := mapM_total (inletStream th T) steps fun s h => by
    obtain ⟨x, hx, -⟩ := hg.pt s.pressure T (hs s h).1
    exact ⟨_, by unfold inletStream; rw [hx]; rfl⟩
  obtain ⟨l1, i1⟩ := mapM_idx _ _ _ hin
  obtain ⟨ys, y1, y2, y3⟩ := hag inlets hin
  have hpts : inputPoints th T eff steps = .ok (List.zipWith (fun x y => (x.2, y.head / eff * eff)) inlets ys) := by
    unfold inputPoints
    simp only [hin, y1]
  -- each time step has its point
  have hpt : ∀ s ∈ steps, ∃ x y, th.flashPT s.pressure T = some x ∧ 0 < x.density ∧ 0 < y ∧
      (s.rate * D / 24 / x.density, y) ∈ List.zipWith (fun x y => (x.2, y.head / eff * eff)) inlets ys ∧
      ∀ rate, ∃ b, headIteration th (fun _ _ => eff) x rate (s.pressure * s.ratio) = .ok (y / eff, eff, b) := by
    intro s hsm
    obtain ⟨k, hk⟩ := List.mem_iff_getElem?.1 hsm
    obtain ⟨q, hq⟩ := idx_of l1.symm hk
    have hz : (List.zipWith (fun s x => startElem s x.1) steps inlets)[k]? = some (startElem s q.1) := by
      rw [List.getElem?_zipWith, hk, hq]
    obtain ⟨y, hy⟩ := idx_of y2.symm hz
    obtain ⟨hy0, hyi⟩ := y3 k _ y hz hy
    obtain ⟨x, hx, hxd, hxs⟩ := hg.pt s.pressure T (hs s hsm).1
    have hq' := i1 k s q hk hq
    unfold inletStream at hq'
    rw [hx] at hq'
    cases Except.ok.inj hq'
    refine ⟨x, y.head, hx, hxd, hy0, List.mem_iff_getElem?.2 ⟨k, ?_⟩, hyi⟩
    rw [List.getElem?_zipWith, hq, hy, ← hxs]
    simp only [div_mul_cancel₀ _ he.1.ne']
  obtain ⟨s0, hs0, hr0⟩ := hpos
  obtain ⟨x0, h0, -, hd0, hh0, hm0, -⟩ := hpt s0 hs0
  have hDp := hg.standard
  obtain ⟨R, hR, hR0⟩ := largest_exists _ _ (List.mem_map_of_mem (f := Prod.fst) hm0) (by simp only; positivity)
  obtain ⟨H, hH, hH0⟩ := largest_exists _ _ (List.mem_map_of_mem (f := Prod.snd) hm0) hh0
  obtain ⟨dr, dh, c, c1, -, c2, -⟩ := C64_covers _ eff R H fuel hf ⟨he.1.le, he.2⟩ hR hH hR0 hH0
  refine ⟨c, ?_, fun s hsm hr => ?_⟩
  · unfold stageChart
    simp only [hpts, c1]
  · obtain ⟨x, y, hx, hxd, hy0, hmem, hit⟩ := hpt s hsm
    obtain ⟨p0, r1, -⟩ := hs s hsm
    have hm : 0 < s.rate * D / 24 := by positivity
    have hcap := c2 _ hmem
    dsimp only at hcap
    exact stage_eval hg ⟨T, c, fun _ _ => eff⟩ eff s.pressure s.ratio (s.rate * D / 24) y he.1 rfl p0 r1 hm x hx
      (hit _) hcap

/-! ### The train -/

theorem train_fits {th : Thermo} {D : ℚ} (hg : Gas th D) (fuel : ℕ) (hf : 60 ≤ fuel) (specs : List Spec)
    (hspec : ∀ c ∈ specs, c.design = none ∧ 0 < c.efficiency ∧ c.efficiency ≤ 1)
    (steps : List Step) (hs : ∀ s ∈ steps, Sound s) (hpos : ∃ s ∈ steps, 0 < s.rate)
    (hag : ∀ (T eff : ℚ) (steps' : List Step) inlets, 0 < eff → steps'.length = steps.length → (∀ s ∈ steps', Sound s) →
      steps'.mapM (inletStream th T) = .ok inlets →
      Agrees th eff (List.zipWith (fun s x => startElem s x.1) steps' inlets)) :
    ∃ sts, prepare th fuel specs steps = .ok sts ∧ sts.length = specs.length ∧
      sts.map (·.temperature) = specs.map (·.temperature) ∧
      ∀ s ∈ steps, 0 < s.rate → ∃ rs, evalStages th s.ratio (s.rate * D / 24) sts s.pressure = .ok rs ∧
        ∀ r ∈ rs, r.valid = true := by
  induction specs generalizing steps with
  | nil => exact ⟨[], rfl, rfl, rfl, fun s _ _ => ⟨[], rfl, by simp⟩⟩
  | cons c cs ih =>
    obtain ⟨d0, e0, e1⟩ := hspec c (by simp)
    obtain ⟨ch, h1, h2⟩ := stage_fits hg fuel hf c.temperature c.efficiency ⟨e0, e1⟩ steps hs hpos
      fun inlets hin => hag _ _ steps inlets e0 rfl hs hin
    have hc : (⟨c.temperature, c.efficiency, none⟩ : Spec) = c := by
      rw [← d0]
    rw [hc] at h1
    have hs' : ∀ s ∈ steps.map (fun s => { s with pressure := s.pressure * s.ratio }), Sound s := by
      intro s hm
      obtain ⟨t, ht, rfl⟩ := List.mem_map.1 hm
      obtain ⟨a, b, d⟩ := hs t ht
      exact ⟨mul_pos a (by linarith), b, d⟩
    obtain ⟨s0, m0, r0⟩ := hpos
    obtain ⟨sts, p1, p2, p4, p3⟩ := ih (fun x hx => hspec x (by simp [hx]))
      (steps.map fun s => { s with pressure := s.pressure * s.ratio }) hs'
      ⟨_, List.mem_map_of_mem m0, r0⟩ fun T eff steps' inlets he hl h3 h4 => hag T eff steps' inlets he (by simpa using hl) h3 h4
    refine ⟨⟨c.temperature, ch, fun _ _ => c.efficiency⟩ :: sts, ?_, by simp [p2], by simp [p4], fun s hm hr => ?_⟩
    · unfold prepare
      simp only [h1, p1]
    · obtain ⟨r, q1, q2, q3⟩ := h2 s hm hr
      obtain ⟨rs, t1, t2⟩ := p3 _ (List.mem_map_of_mem hm) hr
      refine ⟨r :: rs, ?_, ?_⟩
      · unfold evalStages
        simp only [q1, q3]
        simp only at t1
        rw [t1]
      · intro x hx
        rcases List.mem_cons.1 hx with rfl | hx
        · exact q2
        · exact t2 x hx

/-- What the user sees: at this time step the train runs, each stage is within its chart, and the last one delivers the
pressure asked for. -/
def Runs (th : Thermo) (sts : List SStage) (s : Step) : Prop :=
  ∃ out, evalTrain th sts none s.pressure s.ratio s.rate = .ok (some out) ∧ out.stages.length = sts.length ∧
    (∀ r ∈ out.stages, r.valid = true) ∧
    ∀ r ∈ out.stages.getLast?, r.outlet.pressure = s.pressure * s.ratio ^ sts.length

theorem runs_of {th : Thermo} {D : ℚ} (hg : Gas th D) (sts : List SStage) (hne : sts ≠ []) (s : Step) (hs : Sound s)
    (hr : 0 < s.rate) (h : ∃ rs, evalStages th s.ratio (s.rate * D / 24) sts s.pressure = .ok rs ∧ ∀ r ∈ rs, r.valid = true) :
    Runs th sts s := by
  obtain ⟨rs, h1, h2⟩ := h
  obtain ⟨l, hl⟩ := stages_spec th hg.honest s.ratio (s.rate * D / 24) sts s.pressure rs h1
  have hm : 0 < s.rate * D / 24 := by
    have := hg.standard
    positivity
  cases sts with
  | nil => exact absurd rfl hne
  | cons st sts =>
    obtain ⟨x, hx, -, hxs⟩ := hg.pt s.pressure st.temperature hs.1
    refine ⟨⟨rs, exceedsPower none (rs.map (·.power))⟩, ?_, l, h2, ?_⟩
    · unfold evalTrain
      simp only [hx, plain, hxs, (hg.honest.pt _ _ _ hx).1]
      rw [if_neg (not_lt.2 hm.le), if_pos hm, h1]
    · intro r hlast
      simp only at hlast
      have hlt : rs.length - 1 < rs.length := by
        rw [l]
        simp
      rw [List.getLast?_eq_getElem?, List.getElem?_eq_getElem hlt] at hlast
      cases hlast
      have := (hl (rs.length - 1) (by omega) hlt).2.2.1
      rw [this, show rs.length - 1 + 1 = (st :: sts).length by omega]

/-- **A train prepared from its operation runs through it**: for a gas whose head does not depend on its state, a train
with charts made from the operational data runs at each time step with flow, each stage within its chart. -/
theorem C95_fits (th : Thermo) (D : ℚ) (hg : Gas th D) (hu : Uniform th) (fuel : ℕ) (hf : 60 ≤ fuel) (specs : List Spec)
    (hne : specs ≠ []) (hspec : ∀ c ∈ specs, c.design = none ∧ 0 < c.efficiency ∧ c.efficiency ≤ 1)
    (steps : List Step) (hs : ∀ s ∈ steps, Sound s) (hpos : ∃ s ∈ steps, 0 < s.rate) :
    ∃ sts, prepare th fuel specs steps = .ok sts ∧ sts.map (·.temperature) = specs.map (·.temperature) ∧
      ∀ s ∈ steps, 0 < s.rate → Runs th sts s := by
  obtain ⟨sts, h1, h2, h3, h4⟩ := train_fits hg fuel hf specs hspec steps hs hpos (by
    intro T eff steps' inlets he hl hs' hin
    obtain ⟨l1, i1⟩ := mapM_idx _ _ _ hin
    have hp : ∀ e ∈ List.zipWith (fun s x => startElem s x.1) steps' inlets, Proper e ∧ e.head = 0 := by
      intro e he'
      obtain ⟨k, hk⟩ := List.mem_iff_getElem?.1 he'
      rw [List.getElem?_zipWith] at hk
      rcases hsk : steps'[k]? with _ | s
      · simp [hsk] at hk
      · rcases hqk : inlets[k]? with _ | q
        · simp [hsk, hqk] at hk
        · rw [hsk, hqk] at hk
          cases Option.some.inj hk
          obtain ⟨a, b, -⟩ := hs' s (List.mem_of_getElem? hsk)
          have hq := i1 k s q hsk hqk
          unfold inletStream at hq
          obtain ⟨x, hx, -⟩ := hg.pt s.pressure T a
          rw [hx] at hq
          cases Except.ok.inj hq
          refine ⟨⟨mul_pos a (by linarith), ?_⟩, rfl⟩
          simp only [startElem]
          rw [(hg.honest.pt _ _ _ hx).1, mul_div_cancel_left₀ _ a.ne']
          exact b
    refine uniform_agrees hg hu he _ ?_ (fun e h => (hp e h).1) fun e h => (hp e h).2
    intro h
    have h5 := congrArg List.length h
    rw [List.length_zipWith, l1, hl, List.length_nil, Nat.min_self] at h5
    obtain ⟨s0, m0, -⟩ := hpos
    have h6 := List.length_pos_of_mem m0
    omega)
  refine ⟨sts, h1, h3, fun s hm hr => runs_of hg sts ?_ s (hs s hm) hr (h4 s hm hr)⟩
  intro h
  rw [h] at h2
  exact hne (List.length_eq_zero_iff.1 h2.symm)

/-- **With one time step** this holds for any gas. -/
theorem C95_fits_one (th : Thermo) (D : ℚ) (hg : Gas th D) (fuel : ℕ) (hf : 60 ≤ fuel) (specs : List Spec)
    (hne : specs ≠ []) (hspec : ∀ c ∈ specs, c.design = none ∧ 0 < c.efficiency ∧ c.efficiency ≤ 1)
    (s : Step) (hs : Sound s) (hr : 0 < s.rate) :
    ∃ sts, prepare th fuel specs [s] = .ok sts ∧ sts.map (·.temperature) = specs.map (·.temperature) ∧ Runs th sts s := by
  obtain ⟨sts, h1, h2, h3, h4⟩ := train_fits hg fuel hf specs hspec [s] (by simpa using hs) ⟨s, by simp, hr⟩ (by
    intro T eff steps' inlets he hl hs' hin
    obtain ⟨t, rfl⟩ := List.length_eq_one_iff.1 hl
    obtain ⟨l1, i1⟩ := mapM_idx _ _ _ hin
    obtain ⟨q, rfl⟩ := List.length_eq_one_iff.1 l1
    obtain ⟨a, b, -⟩ := hs' t (by simp)
    have hq := i1 0 t q rfl rfl
    unfold inletStream at hq
    obtain ⟨x, hx, -⟩ := hg.pt t.pressure T a
    rw [hx] at hq
    cases Except.ok.inj hq
    refine one_agrees hg he _ ⟨mul_pos a (by linarith), ?_⟩ rfl rfl rfl
    simp only [startElem]
    rw [(hg.honest.pt _ _ _ hx).1, mul_div_cancel_left₀ _ a.ne']
    exact b)
  refine ⟨sts, h1, h3, runs_of hg sts ?_ s hs hr (h4 s (by simp) hr)⟩
  intro h
  rw [h] at h2
  exact hne (List.length_eq_zero_iff.1 h2.symm)

/-! ## Deviations exhibited -/

/-- A gas whose head at ratio 3 grows a little with each pass; at ratio 2 it is constant. -/
def slowGas : Thermo :=
  ⟨fun p t => some ⟨p, t, 1, 0, 1, 0, 1, 1⟩, fun p h => some ⟨p, 300, 1, h, 1, 2 * (h * (3 / 4)) * (1 + 18 / 10000), 1, 1⟩,
   fun _ k _ r _ => if r = 2 then 90000 else if k ≤ 0 then 100000 else k⟩

theorem slowGas_gas : Gas slowGas 1 where
  honest := ⟨by rintro p t s h; cases h; exact ⟨rfl, rfl⟩, by rintro p h s h'; cases h'; exact ⟨rfl, rfl⟩⟩
  pt p t _ := ⟨_, rfl, by norm_num, rfl⟩
  ph p h _ := ⟨_, rfl⟩
  standard := by norm_num
  head e k z r t _ _ := by
    unfold slowGas
    simp only
    split_ifs
    · norm_num
    · norm_num
    · linarith

/-- One time step at ratio 3 among three others at ratio 2, all with the same rate. -/
def slowSteps : List Step := [⟨24000, 1, 3⟩, ⟨24000, 1, 2⟩, ⟨24000, 1, 2⟩, ⟨24000, 1, 2⟩]

/-- **FINDING: with several time steps the chart need not fit the data it was made from.** When the chart is made the
heads of all time steps are found together and the iteration stops when the change of the vector is small compared to the
whole vector; when the train is run each time step is iterated by itself. Here the chart is made with the head of the
first time step after two passes, and at that time step the train made for it is outside its chart. With this time step
alone it would not be (`C95_fits_one`). -/
theorem C95_together : (∀ s ∈ slowSteps, Sound s ∧ 0 < s.rate) ∧ ∃ sts out, prepare slowGas 60 [⟨300, 3 / 4, none⟩] slowSteps = .ok sts ∧
    evalTrain slowGas sts none 1 3 24000 = .ok (some out) ∧ out.stages.map (·.valid) = [false] ∧
    ¬ ∀ s ∈ slowSteps, Runs slowGas sts s := by
  have h : ∃ sts out, prepare slowGas 60 [⟨300, 3 / 4, none⟩] slowSteps = .ok sts ∧
      evalTrain slowGas sts none 1 3 24000 = .ok (some out) ∧ out.stages.map (·.valid) = [false] := by
    have hd : (match prepare slowGas 60 [⟨300, 3 / 4, none⟩] slowSteps with
      | .error _ => none
      | .ok sts => match evalTrain slowGas sts none 1 3 24000 with
        | .ok (some o) => some (o.stages.map (·.valid))
        | _ => none) = some [false] := by decide +kernel
    rcases h1 : prepare slowGas 60 [⟨300, 3 / 4, none⟩] slowSteps with e | sts
    · rw [h1] at hd
      cases hd
    · rcases h2 : evalTrain slowGas sts none 1 3 24000 with e | o
      · rw [h1] at hd
        simp only [h2] at hd
        cases hd
      · rw [h1] at hd
        simp only [h2] at hd
        cases o with
        | none => cases hd
        | some o => exact ⟨sts, o, rfl, h2, Option.some.inj hd⟩
  obtain ⟨sts, out, h1, h2, h3⟩ := h
  refine ⟨by unfold slowSteps Sound; norm_num, sts, out, h1, h2, h3, fun hr => ?_⟩
  obtain ⟨o, e1, -, e2, -⟩ := hr ⟨24000, 1, 3⟩ (by simp [slowSteps])
  simp only at e1
  rw [h2] at e1
  cases Option.some.inj (Except.ok.inj e1)
  have : ∀ b ∈ out.stages.map (·.valid), b = true := by simpa using e2
  rw [h3] at this
  simpa using this false (by simp)

/-! ## Examples -/

/-- A gas of constant heat capacity: the head depends on the ratio. -/
def evenGas : Thermo :=
  ⟨fun p t => some ⟨p, t, p, 0, 1, 1, 1, 1⟩, fun p h => some ⟨p, 300, p, h, 1, 1, 1, 1⟩, fun _ _ _ r _ => if 1 < r then 50000 * (r - 1) else 0⟩

theorem evenGas_gas : Gas evenGas 1 where
  honest := ⟨by rintro p t s h; cases h; exact ⟨rfl, rfl⟩, by rintro p h s h'; cases h'; exact ⟨rfl, rfl⟩⟩
  pt p t hp := ⟨_, rfl, hp, rfl⟩
  ph p h _ := ⟨_, rfl⟩
  standard := by norm_num
  head e k z r t _ h := by
    unfold evenGas
    simp only [if_pos h]
    linarith

/-- Two stages made from three time steps, one of them without flow: the train runs at the other two. -/
example : ∃ sts, prepare evenGas 60 [⟨300, 3 / 4, none⟩, ⟨310, 1 / 2, none⟩] [⟨24000, 10, 3⟩, ⟨0, 10, 2⟩, ⟨12000, 20, 2⟩] = .ok sts ∧
    Runs evenGas sts ⟨24000, 10, 3⟩ ∧ Runs evenGas sts ⟨12000, 20, 2⟩ := by
  obtain ⟨sts, h1, -, h2⟩ := C95_fits evenGas 1 evenGas_gas (fun _ _ _ _ _ _ _ => rfl) 60 (le_refl _)
    [⟨300, 3 / 4, none⟩, ⟨310, 1 / 2, none⟩] (by simp) (by norm_num) [⟨24000, 10, 3⟩, ⟨0, 10, 2⟩, ⟨12000, 20, 2⟩]
    (by unfold Sound; norm_num) ⟨_, List.mem_cons_self, by norm_num⟩
  exact ⟨sts, h1, h2 _ (by simp) (by norm_num), h2 _ (by simp) (by norm_num)⟩

/-- The slow gas at the time step that failed, alone. -/
example : ∃ sts, prepare slowGas 60 [⟨300, 3 / 4, none⟩] [⟨24000, 1, 3⟩] = .ok sts ∧ Runs slowGas sts ⟨24000, 1, 3⟩ := by
  obtain ⟨sts, h1, -, h2⟩ := C95_fits_one slowGas 1 slowGas_gas 60 (le_refl _) [⟨300, 3 / 4, none⟩] (by simp) (by norm_num)
    ⟨24000, 1, 3⟩ (by unfold Sound; norm_num) (by norm_num)
  exact ⟨sts, h1, h2⟩

/-! ## Charts from design points -/

/-- **Stages with a design point** do not depend on the operation: each gets the generic chart on which its design point
lies without any correction, with the given efficiency everywhere, and the given temperature. -/
theorem C95_design (th : Thermo) (fuel : ℕ) (specs : List Spec) (steps : List Step)
    (hd : ∀ spec ∈ specs, ∃ rate head, spec.design = some (rate, head) ∧ 0 < rate ∧ 0 < head ∧
      0 ≤ spec.efficiency ∧ spec.efficiency ≤ 1) :
    ∃ sts, prepare th fuel specs steps = .ok sts ∧ List.Forall₂ (fun (spec : Spec) (st : SStage) =>
      ∀ rate head, spec.design = some (rate, head) →
        st.temperature = spec.temperature ∧ (∀ r h, st.efficiency r h = spec.efficiency) ∧
        (∀ b, st.chart.capacity rate head b = ⟨rate, head, false, false, false, false, false⟩) ∧
        ∀ near r h, st.chart.effAt near r h = spec.efficiency) specs sts := by
  induction specs generalizing steps with
  | nil => exact ⟨[], rfl, .nil⟩
  | cons spec t ih =>
    obtain ⟨rate, head, h0, h1, h2, h3⟩ := hd spec (by simp)
    obtain ⟨ch, hc, rfl, -, -, he, -⟩ := (C63.C63_design rate head spec.efficiency h1).2 h3
    obtain ⟨sts, hs, hF⟩ := ih (steps.map fun s => { s with pressure := s.pressure * s.ratio })
      fun a ha => hd a (by simp [ha])
    refine ⟨⟨spec.temperature, genericChart rate head spec.efficiency, fun _ _ => spec.efficiency⟩ :: sts, ?_, .cons ?_ hF⟩
    · unfold prepare stageChart
      rw [h0]
      dsimp only
      rw [hc]
      dsimp only
      rw [hs]
    · intro r h e
      rw [h0] at e
      obtain ⟨rfl, rfl⟩ := Prod.mk.inj (Option.some.inj e)
      exact ⟨rfl, fun _ _ => rfl, fun b => C63.C63_design_point _ _ _ h1 h2 b, he⟩

example : (match prepare slowGas 60 [⟨300, 3 / 4, some (5000, 120000)⟩, ⟨310, 4 / 5, some (3000, 90000)⟩] slowSteps with
    | .ok sts => sts.map fun st => (st.temperature, st.chart.capacity 5000 120000 true)
    | .error _ => []) =
    [(300, ⟨5000, 120000, false, false, false, false, false⟩),
     (310, (genericChart 3000 90000 (4 / 5)).capacity 5000 120000 true)] := by decide +kernel

end Verif.C95
