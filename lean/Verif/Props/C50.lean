import Mathlib.Tactic.FieldSimp
import Mathlib.Tactic.Ring
import Mathlib.Tactic.NormNum
import Mathlib.Algebra.BigOperators.Ring.List
import Verif.Props.C08
import Verif.Props.C10
import Verif.Model.Intensity

/-! # C50 — Emission intensity is emitted mass over exported volume -/

namespace Verif.C50
open Verif.Time Verif.Units Verif.Rates Verif.RateLemmas Verif.Intensity

/-- Specification: volume of each period from rate, regularity and length in days. -/
def vols (ps : Periods) (rt : RateType) (xs rs : List ℚ) : List ℚ :=
  List.zipWith (fun x p => x * C10.days p) (List.zipWith (C10.calendarRate rt) xs rs) ps

/-- Specification: total of the first periods up to and including number `i`. -/
def totalTo (vs : List ℚ) (i : Nat) : ℚ := (vs.take (i + 1)).sum

/-- Specification: a ratio that is undefined when nothing is exported. -/
def ratio (a b : ℚ) : Fl := if b = 0 then none else some (a / b)

/-- A rate series with only numbers. -/
def numbers (ps : Periods) (xs : List ℚ) (u : EUnit) (rt : RateType) (rs : List ℚ) : RateTS :=
  ⟨ps, xs.map some, u, rt, rs.map some⟩

theorem vols_length (ps : Periods) (rt : RateType) (xs rs : List ℚ) (h1 : ps.length = xs.length)
    (h2 : ps.length = rs.length) : (vols ps rt xs rs).length = ps.length := by simp [vols]; omega

theorem toVolumes_numbers (ps : Periods) (xs : List ℚ) (u u' : EUnit) (rt : RateType) (rs : List ℚ)
    (h1 : ps.length = xs.length) (h2 : ps.length = rs.length) (hu : u.rateToVolume = .ok u') :
    (numbers ps xs u rt rs).toVolumes = .ok ⟨ps, (vols ps rt xs rs).map some, u'⟩ := by
  obtain ⟨v, hv, hp, hun, hl, hval⟩ :=
    C10.C10_volume_is_rate_times_days (numbers ps xs u rt rs) ⟨by simp [numbers, h1], by simp [numbers, h2]⟩ u' hu
  rw [hv]
  obtain ⟨vp, vv, vu⟩ := v
  simp only [numbers] at hp hun hl hval
  subst hp hun
  congr 2
  apply List.ext_getElem?
  intro i
  by_cases hi : i < vp.length
  · have a1 : xs[i]? = some (xs[i]'(by omega)) := List.getElem?_eq_getElem _
    have a2 : rs[i]? = some (rs[i]'(by omega)) := List.getElem?_eq_getElem _
    have a3 : vp[i]? = some (vp[i]'hi) := List.getElem?_eq_getElem _
    rw [hval i _ _ _ a3 (by rw [List.getElem?_map, a1]; rfl) (by rw [List.getElem?_map, a2]; rfl)]
    simp [vols, List.getElem?_zipWith, a1, a2, a3]
  · have b1 : vv[i]? = none := List.getElem?_eq_none (by simp at hl; omega)
    have b2 : ((vols vp rt xs rs).map some)[i]? = none :=
      List.getElem?_eq_none (by rw [List.length_map, vols_length _ _ _ _ h1 h2]; omega)
    rw [b1, b2]

theorem nancumsum_scale (c a : ℚ) (vs : List ℚ) :
    (nancumsumFrom a (vs.map some)).map (fun v => v.map (fun x => x * c)) =
      nancumsumFrom (a * c) ((vs.map (· * c)).map some) := by
  induction vs generalizing a with
  | nil => rfl
  | cons v vs ih =>
    simp only [List.map_cons, nancumsumFrom, Option.getD_some, Option.map_some]
    rw [ih, add_mul]

/-- What the object computes from cumulative sums of numbers. -/
theorem intensity_ok (ps ps' : Periods) (es hs : List ℚ) (u w : EUnit) (h1 : ps.length = es.length)
    (h2 : ps'.length = hs.length) (h3 : es.length = hs.length)
    (hu : (u = .STANDARD_CUBIC_METER ∧ w = .KG_SM3) ∨ (u = .BOE ∧ w = .KG_BOE)) :
    let em : TS Fl := ⟨ps, computeCumulative (es.map some), .KILO⟩
    let hc : TS Fl := ⟨ps', computeCumulative (hs.map some), u⟩
    EmissionIntensity.make em hc = .ok ⟨em, hc, w, ps⟩ ∧
    (⟨em, hc, w, ps⟩ : EmissionIntensity).cumulative =
      .ok ⟨ps, List.zipWith Fl.div (computeCumulative (es.map some)) (computeCumulative (hs.map some)), w⟩ ∧
    (⟨em, hc, w, ps⟩ : EmissionIntensity).forPeriods =
      .ok ⟨ps, List.zipWith Fl.div (es.map some) (hs.map some), w⟩ := by
  have l1 : (computeCumulative (es.map some)).length = es.length := by
    simp [computeCumulative, C08.nancumsumFrom_length]
  have l2 : (computeCumulative (hs.map some)).length = hs.length := by
    simp [computeCumulative, C08.nancumsumFrom_length]
  have hd : ∀ vs : List ℚ, diffFrom (some 0) (computeCumulative (vs.map some)) = vs.map some := by
    intro vs
    unfold computeCumulative
    rw [C08.diffFrom_nancumsumFrom]
    simp [C08.counted]
  have c1 : (⟨ps, computeCumulative (es.map some), .KILO⟩ : TS Fl).values.length = es.length := l1
  rcases hu with ⟨rfl, rfl⟩ | ⟨rfl, rfl⟩
  all_goals
    refine ⟨?_, ?_, ?_⟩
    · simp [EmissionIntensity.make, l1, l2, h3, Bind.bind, Except.bind, Pure.pure, Except.pure]
    · simp only [EmissionIntensity.cumulative, volumesDiv, Bind.bind, Except.bind, l1, l2, h3, ne_eq, not_true_eq_false,
        if_false, TS.make, List.length_zipWith, Nat.min_self, h1, if_true, Pure.pure, Except.pure]
    · simp only [EmissionIntensity.forPeriods, cumToVolumes, hd, Bind.bind, Except.bind, TS.make, List.length_map, h1, h2, h3,
        if_true, volumesDiv, ne_eq, not_true_eq_false, if_false, List.length_zipWith, Nat.min_self, Pure.pure, Except.pure]

/-- **C50, accepted inputs.** The object can only be built for kilograms over Sm3 or over BOE, with the matching
intensity unit, and for equally many values; other units are a programming error, other lengths a ValueError. -/
theorem C50_accepted (em hc : TS Fl) :
    (∀ e, EmissionIntensity.make em hc = .ok e →
      em.unit = .KILO ∧ em.values.length = hc.values.length ∧
      ((hc.unit = .STANDARD_CUBIC_METER ∧ e.unit = .KG_SM3) ∨ (hc.unit = .BOE ∧ e.unit = .KG_BOE))) ∧
    (¬ (em.unit = .KILO ∧ (hc.unit = .STANDARD_CUBIC_METER ∨ hc.unit = .BOE)) →
      EmissionIntensity.make em hc = .error .programmingError) ∧
    (em.unit = .KILO → (hc.unit = .STANDARD_CUBIC_METER ∨ hc.unit = .BOE) → em.values.length ≠ hc.values.length →
      EmissionIntensity.make em hc = .error .valueError) := by
  obtain ⟨ps, vs, u⟩ := em
  obtain ⟨qs, ws, u'⟩ := hc
  refine ⟨?_, ?_, ?_⟩
  · intro e he
    cases u <;> cases u' <;>
      simp [EmissionIntensity.make, Bind.bind, Except.bind, Pure.pure, Except.pure] at he ⊢ <;>
      (split at he <;> simp at he; subst he; simp_all)
  · intro h
    cases u <;> cases u' <;> simp_all [EmissionIntensity.make, Bind.bind, Except.bind]
  · rintro h1 (h2 | h2) h3 <;> simp only at h1 h2 h3 <;> subst h1 h2 <;>
      simp [EmissionIntensity.make, Bind.bind, Except.bind, h3]

/-- **C50, dividing volumes.** Kilograms over Sm3 or over BOE give a series in the matching intensity unit, whose value in
a period is the quotient, undefined where the divisor is zero; other units are a programming error, other lengths a
ValueError. -/
theorem C50_divide (em hc : TS Fl) (hone : em.periods.length = em.values.length) :
    (em.unit = .KILO → (hc.unit = .STANDARD_CUBIC_METER ∨ hc.unit = .BOE) → em.values.length = hc.values.length →
      ∃ r, volumesDiv em hc = .ok r ∧ r.periods = em.periods ∧
        r.unit = (if hc.unit = .BOE then .KG_BOE else .KG_SM3) ∧
        ∀ (i : Nat) (x y : ℚ), em.values[i]? = some (some x) → hc.values[i]? = some (some y) →
          r.values[i]? = some (ratio x y)) ∧
    (em.unit = .KILO → (hc.unit = .STANDARD_CUBIC_METER ∨ hc.unit = .BOE) → em.values.length ≠ hc.values.length →
      volumesDiv em hc = .error .valueError) ∧
    (¬ (em.unit = .KILO ∧ (hc.unit = .STANDARD_CUBIC_METER ∨ hc.unit = .BOE)) →
      volumesDiv em hc = .error .programmingError) := by
  obtain ⟨ps, vs, u⟩ := em
  obtain ⟨qs, ws, u'⟩ := hc
  simp only at hone
  refine ⟨?_, ?_, ?_⟩
  · rintro h1 h2 h3
    simp only at h1 h2 h3
    subst h1
    have hq : ∀ (i : Nat) (x y : ℚ), vs[i]? = some (some x) → ws[i]? = some (some y) →
        (List.zipWith Fl.div vs ws)[i]? = some (ratio x y) := by
      intro i x y hx hy
      rw [List.getElem?_zipWith, hx, hy]
      rfl
    rcases h2 with h2 | h2 <;> subst h2
    · refine ⟨⟨ps, List.zipWith Fl.div vs ws, .KG_SM3⟩, ?_, rfl, by simp, hq⟩
      simp [volumesDiv, Bind.bind, Except.bind, h3, TS.make, hone]
    · refine ⟨⟨ps, List.zipWith Fl.div vs ws, .KG_BOE⟩, ?_, rfl, by simp, hq⟩
      simp [volumesDiv, Bind.bind, Except.bind, h3, TS.make, hone]
  · rintro h1 (h2 | h2) h3 <;> simp only at h1 h2 h3 <;> subst h1 h2 <;>
      simp [volumesDiv, Bind.bind, Except.bind, h3]
  · intro h
    cases u <;> cases u' <;> simp_all [volumesDiv, Bind.bind, Except.bind]

/-- **C50, from rates to intensities.** For export in Sm3/day and emissions in t/day given as numbers with their
regularity, the intensities exist for all periods; in period `i` the cumulative intensity is the mass in kg
emitted up to the end of the period over the volume exported up to then, the period intensity is the mass over
the volume of the period, both undefined when that volume is zero; the values per BOE use the volume times 6.29. -/
theorem C50_from_rates (ps qs : Periods) (xs rs ys ss : List ℚ) (rt rt' : RateType) (h1 : ps.length = xs.length)
    (h2 : ps.length = rs.length) (h3 : qs.length = ys.length) (h4 : qs.length = ss.length)
    (h5 : ps.length = qs.length) :
    ∃ sm3 boe cs cb psm pb,
      calculator (numbers ps xs .STANDARD_CUBIC_METER_PER_DAY rt rs) (numbers qs ys .TONS_PER_DAY rt' ss) = .ok (sm3, boe) ∧
      sm3.cumulative = .ok cs ∧ boe.cumulative = .ok cb ∧ sm3.forPeriods = .ok psm ∧ boe.forPeriods = .ok pb ∧
      (cs.unit = .KG_SM3 ∧ psm.unit = .KG_SM3 ∧ cb.unit = .KG_BOE ∧ pb.unit = .KG_BOE) ∧
      (∀ t ∈ [cs, cb, psm, pb], t.periods = qs ∧ t.values.length = qs.length) ∧
      ∀ i, i < qs.length →
        let V := vols ps rt xs rs
        let M := vols qs rt' ys ss
        cs.values[i]? = some (ratio (1000 * totalTo M i) (totalTo V i)) ∧
        cb.values[i]? = some (ratio (1000 * totalTo M i) (629 / 100 * totalTo V i)) ∧
        psm.values[i]? = some (ratio (1000 * M.getD i 0) (V.getD i 0)) ∧
        pb.values[i]? = some (ratio (1000 * M.getD i 0) (629 / 100 * V.getD i 0)) := by
  have lV := vols_length ps rt xs rs h1 h2
  have lM := vols_length qs rt' ys ss h3 h4
  have tV := toVolumes_numbers ps xs .STANDARD_CUBIC_METER_PER_DAY .STANDARD_CUBIC_METER rt rs h1 h2 rfl
  have tM := toVolumes_numbers qs ys .TONS_PER_DAY .TONS rt' ss h3 h4 rfl
  generalize hV : vols ps rt xs rs = V at *
  generalize hM : vols qs rt' ys ss = M at *
  obtain ⟨a1, a2, a3⟩ := intensity_ok qs ps (M.map (· * 1000)) V .STANDARD_CUBIC_METER .KG_SM3
    (by simp [lM]) (by simp [lV]) (by simp; omega) (Or.inl ⟨rfl, rfl⟩)
  obtain ⟨b1, b2, b3⟩ := intensity_ok qs ps (M.map (· * 1000)) (V.map (· * (629 / 100))) .BOE .KG_BOE
    (by simp [lM]) (by simp [lV]) (by simp; omega) (Or.inr ⟨rfl, rfl⟩)
  have hcum : Rates.cumulative ⟨ps, V.map some, .STANDARD_CUBIC_METER⟩ =
      .ok ⟨ps, computeCumulative (V.map some), .STANDARD_CUBIC_METER⟩ := by
    simp [Rates.cumulative, TS.make, computeCumulative, C08.nancumsumFrom_length, lV]
  have hkg : cumulativeKg (numbers qs ys .TONS_PER_DAY rt' ss) =
      .ok ⟨qs, computeCumulative ((M.map (· * 1000)).map some), .KILO⟩ := by
    unfold cumulativeKg
    simp only [tM, Bind.bind, Except.bind]
    have : TS.toUnit ⟨qs, M.map some, .TONS⟩ .KILO = .ok ⟨qs, (M.map (· * 1000)).map some, .KILO⟩ := by
      unfold TS.toUnit
      rw [if_neg (by simp)]
      have : EUnit.to .TONS .KILO = .ok fun a => a * 1000 := rfl
      simp only [this, Except.ok.injEq, TS.mk.injEq, true_and, and_true, List.map_map]
      apply List.map_congr_left
      intro x _
      rfl
    rw [this]
    simp [Rates.cumulative, TS.make, computeCumulative, C08.nancumsumFrom_length, lM]
  have hboe : TS.toUnit ⟨ps, computeCumulative (V.map some), .STANDARD_CUBIC_METER⟩ .BOE =
      .ok ⟨ps, computeCumulative ((V.map (· * (629 / 100))).map some), .BOE⟩ := by
    unfold TS.toUnit
    rw [if_neg (by simp)]
    have : EUnit.to .STANDARD_CUBIC_METER .BOE = .ok fun a => a * (629 / 100) := rfl
    simp only [this, Except.ok.injEq, TS.mk.injEq, true_and, and_true, computeCumulative]
    rw [nancumsum_scale, zero_mul]
  have hsm3 : TS.toUnit ⟨ps, computeCumulative (V.map some), .STANDARD_CUBIC_METER⟩ .STANDARD_CUBIC_METER =
      .ok ⟨ps, computeCumulative (V.map some), .STANDARD_CUBIC_METER⟩ := by
    unfold TS.toUnit
    rw [if_pos rfl]
  refine ⟨_, _, _, _, _, _, ?_, a2, b2, a3, b3, ⟨rfl, rfl, rfl, rfl⟩, ?_, ?_⟩
  · unfold calculator
    simp only [tV, hcum, hkg, hsm3, hboe, a1, b1, Bind.bind, Except.bind, Pure.pure, Except.pure]
  · intro t ht
    simp only [List.mem_cons, List.not_mem_nil, or_false] at ht
    rcases ht with rfl | rfl | rfl | rfl <;>
      simp [computeCumulative, C08.nancumsumFrom_length, lM, lV, h5]
  · intro i hi
    have gM : ∀ c : ℚ, (computeCumulative ((M.map (· * c)).map some))[i]? = some (some (c * totalTo M i)) := by
      intro c
      unfold computeCumulative
      rw [C08.nancumsumFrom_get _ _ _ (by simp [lM]; exact hi)]
      simp only [zero_add, C08.totalOfFirst, totalTo, ← List.map_take, List.map_map, Option.some.injEq]
      have : (C08.counted ∘ some ∘ fun x : ℚ => x * c) = fun x => x * c := by funext x; rfl
      rw [this, List.sum_map_mul_right, mul_comm]; simp
    have gV : ∀ c : ℚ, (computeCumulative ((V.map (· * c)).map some))[i]? = some (some (c * totalTo V i)) := by
      intro c
      unfold computeCumulative
      rw [C08.nancumsumFrom_get _ _ _ (by simp [lV]; omega)]
      simp only [zero_add, C08.totalOfFirst, totalTo, ← List.map_take, List.map_map, Option.some.injEq]
      have : (C08.counted ∘ some ∘ fun x : ℚ => x * c) = fun x => x * c := by funext x; rfl
      rw [this, List.sum_map_mul_right, mul_comm]; simp
    have gV1 := gV 1
    simp only [mul_one, List.map_id', one_mul] at gV1
    have eM : M[i]? = some (M.getD i 0) := by
      rw [List.getD_eq_getElem?_getD, List.getElem?_eq_getElem (by omega)]; rfl
    have eV : V[i]? = some (V.getD i 0) := by
      rw [List.getD_eq_getElem?_getD, List.getElem?_eq_getElem (by omega)]; rfl
    refine ⟨?_, ?_, ?_, ?_⟩
    · simp only [List.getElem?_zipWith, gM, gV1]; rfl
    · simp only [List.getElem?_zipWith, gM, gV]; rfl
    · simp only [List.getElem?_zipWith, List.getElem?_map, eM, eV]
      simp [Fl.div, ratio, mul_comm]
    · simp only [List.getElem?_zipWith, List.getElem?_map, eM, eV]
      simp [Fl.div, ratio, mul_comm]

/-- **C50, per Sm3 and per BOE.** Both are defined for the same periods, and the value per Sm3 is 6.29 times the
value per BOE. -/
theorem C50_sm3_boe (ps qs : Periods) (xs rs ys ss : List ℚ) (rt rt' : RateType) (h1 : ps.length = xs.length)
    (h2 : ps.length = rs.length) (h3 : qs.length = ys.length) (h4 : qs.length = ss.length)
    (h5 : ps.length = qs.length) :
    ∃ sm3 boe cs cb psm pb,
      calculator (numbers ps xs .STANDARD_CUBIC_METER_PER_DAY rt rs) (numbers qs ys .TONS_PER_DAY rt' ss) = .ok (sm3, boe) ∧
      sm3.cumulative = .ok cs ∧ boe.cumulative = .ok cb ∧ sm3.forPeriods = .ok psm ∧ boe.forPeriods = .ok pb ∧
      cs.values = cb.values.map (fun v => v.map (· * (629 / 100))) ∧
      psm.values = pb.values.map (fun v => v.map (· * (629 / 100))) := by
  obtain ⟨sm3, boe, cs, cb, psm, pb, hc, e1, e2, e3, e4, -, hlen, hval⟩ :=
    C50_from_rates ps qs xs rs ys ss rt rt' h1 h2 h3 h4 h5
  have hr : ∀ a b : ℚ, ratio a b = (ratio a (629 / 100 * b)).map (· * (629 / 100)) := by
    intro a b
    unfold ratio
    by_cases hb : b = 0
    · simp [hb]
    · rw [if_neg hb, if_neg (by positivity)]
      simp only [Option.map_some, Option.some.injEq]
      field_simp
  refine ⟨sm3, boe, cs, cb, psm, pb, hc, e1, e2, e3, e4, ?_, ?_⟩
  all_goals
    apply List.ext_getElem?
    intro i
    by_cases hi : i < qs.length
    · obtain ⟨v1, v2, v3, v4⟩ := hval i hi
      simp only [List.getElem?_map, v1, v2, v3, v4, Option.map_some]
      rw [← hr]
    · rw [List.getElem?_eq_none, List.getElem?_eq_none]
      · rw [List.length_map, (hlen _ (by simp)).2]; omega
      · rw [(hlen _ (by simp)).2]; omega

/-- Specification: weighted total of period values. -/
def weighted (is vs : List ℚ) (n : Nat) : ℚ := totalTo (List.zipWith (· * ·) is vs) n

theorem weighted_total (ms vs is : List ℚ) (hl : ms.length = vs.length) (hi : is.length = vs.length)
    (h : ∀ i, i < vs.length → is.getD i 0 * vs.getD i 0 = ms.getD i 0) (n : Nat) :
    totalTo (List.zipWith (· * ·) is vs) n = totalTo ms n := by
  have : List.zipWith (· * ·) is vs = ms := by
    apply List.ext_getElem (by simp; omega)
    intro i h1 h2
    have := h i (by omega)
    simp only [List.getD_eq_getElem?_getD] at this
    rw [List.getElem?_eq_getElem (by omega), List.getElem?_eq_getElem (by omega), List.getElem?_eq_getElem (by omega)] at this
    simpa using this
  rw [this]

/-- **C50, period and cumulative intensities agree.** When every period exports something and something has been
exported up to period `n`, the cumulative intensity times the total export is the sum over the periods of period
intensity times period export. -/
theorem C50_weighted_average (ps qs : Periods) (xs rs ys ss : List ℚ) (rt rt' : RateType) (h1 : ps.length = xs.length)
    (h2 : ps.length = rs.length) (h3 : qs.length = ys.length) (h4 : qs.length = ss.length)
    (h5 : ps.length = qs.length) (hnz : ∀ v ∈ vols ps rt xs rs, v ≠ 0) (n : Nat) (hn : n < qs.length)
    (hnz' : totalTo (vols ps rt xs rs) n ≠ 0) :
    ∃ sm3 boe cs psm is c,
      calculator (numbers ps xs .STANDARD_CUBIC_METER_PER_DAY rt rs) (numbers qs ys .TONS_PER_DAY rt' ss) = .ok (sm3, boe) ∧
      sm3.cumulative = .ok cs ∧ sm3.forPeriods = .ok psm ∧ psm.values = is.map some ∧ cs.values[n]? = some (some c) ∧
      c * totalTo (vols ps rt xs rs) n = weighted is (vols ps rt xs rs) n := by
  have lV := vols_length ps rt xs rs h1 h2
  have lM := vols_length qs rt' ys ss h3 h4
  obtain ⟨sm3, boe, cs, cb, psm, pb, hc, e1, -, e3, -, -, hlen, hval⟩ :=
    C50_from_rates ps qs xs rs ys ss rt rt' h1 h2 h3 h4 h5
  simp only at hval
  generalize hV : vols ps rt xs rs = V at *
  generalize hM : vols qs rt' ys ss = M at *
  refine ⟨sm3, boe, cs, psm, List.zipWith (fun m v => 1000 * m / v) M V, 1000 * totalTo M n / totalTo V n, hc, e1, e3, ?_, ?_, ?_⟩
  · apply List.ext_getElem?
    intro i
    by_cases hi : i < qs.length
    · obtain ⟨-, -, v3, -⟩ := hval i hi
      have hM' : M[i]? = some M[i] := List.getElem?_eq_getElem (by omega)
      have hV' : V[i]? = some V[i] := List.getElem?_eq_getElem (by omega)
      have := hnz V[i] (by simp)
      rw [v3]
      simp [List.getElem?_zipWith, hM', hV', List.getD_eq_getElem?_getD, ratio, this]
    · rw [List.getElem?_eq_none, List.getElem?_eq_none]
      · simp; omega
      · rw [(hlen _ (by simp)).2]; omega
  · obtain ⟨v1, -⟩ := hval n hn
    rw [v1]
    simp [ratio, hnz']
  · rw [weighted, weighted_total (M.map (1000 * ·)) V _ (by simp; omega) (by simp; omega)]
    · unfold totalTo
      unfold totalTo at hnz'
      rw [← List.map_take, List.sum_map_mul_left]
      simp only [List.map_id']
      field_simp
    · intro i hi
      have hM' : M[i]? = some (M[i]'(by omega)) := List.getElem?_eq_getElem (by omega)
      have hV' : V[i]? = some V[i] := List.getElem?_eq_getElem (by omega)
      have := hnz V[i] (by simp)
      simp only [List.getD_eq_getElem?_getD, List.getElem?_zipWith, List.getElem?_map, hM', hV', Option.map_some,
        Option.getD_some]
      field_simp

/-- Non-vacuity: two periods of 10 and 5 days; 2 t/day, then 1 t/day; 100 and 300 Sm3/day with regularity 0.5. -/
example :
    let d : Int := 86400000000
    let ps : Periods := [⟨0, 10 * d⟩, ⟨10 * d, 15 * d⟩]
    let r := calculator (numbers ps [100, 300] .STANDARD_CUBIC_METER_PER_DAY .streamDay [1/2, 1/2])
      (numbers ps [2, 1] .TONS_PER_DAY .calendarDay [1, 1])
    (r.toOption.bind fun e => e.1.cumulative.toOption).map (·.values) = some [some 40, some 20] ∧
    (r.toOption.bind fun e => e.1.forPeriods.toOption).map (·.values) = some [some 40, some (20 / 3)] := by
  decide +kernel

end Verif.C50
