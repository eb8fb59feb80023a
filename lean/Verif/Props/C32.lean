import Verif.Props.C13
import Verif.Props.C21
import Verif.Props.C22
import Verif.Props.C26
import Mathlib.Data.List.Forall2
import Mathlib.Tactic.FieldSimp
import Mathlib.Tactic.Ring
import Mathlib.Tactic.NormNum

/-!
# C32: venting emissions account for every listed emission
-/

namespace Verif.C32
open Verif.Time Verif.Units Verif.Rates Verif.Expression Verif.Variables Verif.Inputs Verif.C19

/-! ## Specification -/

/-- `y` is the stream-day rate of the given rate `x` at regularity `r`. -/
def StreamDay (rt : RateType) (x r y : ℚ) : Prop :=
  match rt with
  | .streamDay => y = x
  | .calendarDay => (r = 0 ∧ y = 0) ∨ (r ≠ 0 ∧ y * r = x)

/-- `z` tonnes are `y` in the unit `u`. -/
def InTonnes (u : EUnit) (y z : ℚ) : Prop :=
  (u = .TONS_PER_DAY ∧ z = y) ∨ (u = .KILO_PER_DAY ∧ 1000 * z = y)

/-- The regularity in force: its values over the calculated periods. -/
structure Regular (pow : Fl → Fl → Fl) (ev : VarMap) (reg : Reg) (rs : List ℚ) : Prop where
  built : Built ev
  evaluator : reg.evaluator = ev
  values : reg.values pow = .ok (rs.map some)
  length : rs.length = ev.periods.length

/-- A listed emission with the values of its (masked) rate expression (see C22) and a unit the YAML accepts. -/
structure Listed (pow : Fl → Fl → Fl) (ev : VarMap) (e : VentEmission) (xs : List ℚ) : Prop where
  evaluator : e.rate.evaluator = ev
  values : e.rate.masked pow = .ok (xs.map some)
  length : xs.length = ev.periods.length
  unit : e.unit = .TONS_PER_DAY ∨ e.unit = .KILO_PER_DAY

/-- The reported series of one emission is right: stream-day tonnes per day, one value per period. -/
def Right (ev : VarMap) (rs : List ℚ) (rt : RateType) (u : EUnit) (xs : List ℚ) (s : RateTS) : Prop :=
  s.periods = ev.periods ∧ s.unit = .TONS_PER_DAY ∧ s.rateType = .streamDay ∧ s.regularity = rs.map some ∧
  ∃ zs : List ℚ, s.values = zs.map some ∧ zs.length = ev.periods.length ∧
    ∀ (k : Nat) (hx : k < xs.length) (hr : k < rs.length) (hz : k < zs.length),
      ∃ y, StreamDay rt xs[k] rs[k] y ∧ InTonnes u y zs[k]

/-! ## Lemmas -/

/-- Stream-day values in rationals. -/
theorem stream_values {pow : Fl → Fl → Fl} {ev : VarMap} {reg : Reg} {rs xs : List ℚ} (hr : Regular pow ev reg rs)
    (t : TSE) (rt : RateType) (hv : t.masked pow = .ok (xs.map some)) (hl : xs.length = ev.periods.length) :
    ∃ ys : List ℚ, streamDayValues pow t rt reg = .ok (ys.map some) ∧ ys.length = ev.periods.length ∧
      ∀ (k : Nat) (hx : k < xs.length) (hr : k < rs.length) (hy : k < ys.length),
        StreamDay rt xs[k] rs[k] ys[k] := by
  cases rt with
  | streamDay =>
    refine ⟨xs, ?_, hl, fun k _ _ _ => rfl⟩
    unfold streamDayValues
    rw [hv]
    rfl
  | calendarDay =>
    refine ⟨List.zipWith (fun x r => if r = 0 then 0 else x / r) xs rs, ?_, by simp [hl, hr.length], ?_⟩
    · unfold streamDayValues
      rw [hv, hr.values]
      simp only [Bind.bind, Except.bind]
      unfold Rates.toStreamDay
      rw [npOp_same _ _ _ (by simp [hl, hr.length])]
      congr 1
      rw [List.zipWith_map, List.map_zipWith]
      congr 1
      funext x r
      unfold streamDayValue Fl.div
      by_cases h : r = 0 <;> simp [h]
    · intro k h1 h2 h3
      rw [List.getElem_zipWith]
      unfold StreamDay
      by_cases h : rs[k] = 0
      · left; simp [h]
      · right
        refine ⟨h, ?_⟩
        rw [if_neg h]
        field_simp

theorem to_tonnes (u : EUnit) (h : u = .TONS_PER_DAY ∨ u = .KILO_PER_DAY) (ys : List ℚ) :
    ∃ zs : List ℚ, convertValues u .TONS_PER_DAY (ys.map some) = .ok (zs.map some) ∧ zs.length = ys.length ∧
      ∀ (k : Nat) (hy : k < ys.length) (hz : k < zs.length), InTonnes u ys[k] zs[k] := by
  rcases h with rfl | rfl
  · refine ⟨ys, ?_, rfl, fun k _ _ => Or.inl ⟨rfl, rfl⟩⟩
    have e : EUnit.to .TONS_PER_DAY .TONS_PER_DAY = .ok (fun a => a) := rfl
    unfold convertValues
    rw [e]
    simp [RateTS.liftU, Bind.bind, Except.bind, Pure.pure, Except.pure]
  · have e : ∃ f, EUnit.to .KILO_PER_DAY .TONS_PER_DAY = .ok f ∧ ∀ a : ℚ, 1000 * f a = a := by
      refine ⟨_, rfl, fun a => ?_⟩
      ring
    obtain ⟨f, hf, hfa⟩ := e
    refine ⟨ys.map f, ?_, by simp, fun k h1 h2 => Or.inr ⟨rfl, by simp [hfa]⟩⟩
    unfold convertValues
    rw [hf]
    simp [RateTS.liftU, Bind.bind, Except.bind, Pure.pure, Except.pure, Function.comp_def]

/-- The stream-day series of one emission. -/
def RightDay (ev : VarMap) (rs : List ℚ) (rt : RateType) (u : EUnit) (xs : List ℚ) (s : TS Fl) : Prop :=
  s.periods = ev.periods ∧ s.unit = .TONS_PER_DAY ∧
  ∃ zs : List ℚ, s.values = zs.map some ∧ zs.length = ev.periods.length ∧
    ∀ (k : Nat) (hx : k < xs.length) (hr : k < rs.length) (hz : k < zs.length),
      ∃ y, StreamDay rt xs[k] rs[k] y ∧ InTonnes u y zs[k]

theorem vent_step {pow : Fl → Fl → Fl} {ev : VarMap} {reg : Reg} {rs xs : List ℚ} (hr : Regular pow ev reg rs)
    (e : VentEmission) (he : Listed pow ev e xs) : ∃ s, RightDay ev rs e.rateType e.unit xs s ∧
      ∀ acc, ventStep pow reg acc e = .ok (dictSet e.name s acc) := by
  obtain ⟨ys, h1, h2, h3⟩ := stream_values hr e.rate e.rateType he.values he.length
  obtain ⟨zs, g1, g2, g3⟩ := to_tonnes e.unit he.unit ys
  refine ⟨⟨ev.periods, zs.map some, .TONS_PER_DAY⟩, ⟨rfl, rfl, zs, rfl, by omega, ?_⟩, ?_⟩
  · intro k hx hr' hz
    exact ⟨ys[k], h3 k hx hr' (by omega), g3 k (by omega) hz⟩
  · intro acc
    unfold ventStep
    simp only [Bind.bind, Except.bind, h1, g1, he.evaluator]
    rw [C13.make_ok (by simp; omega)]
    rfl

theorem for_all_periods {α : Type} (ps : Periods) (vs : List α) (u : EUnit) (hw : C05.WF ps) (hne : ps ≠ [])
    (hl : ps.length = vs.length) : TS.forPeriods ⟨ps, vs, u⟩ ps = .ok ⟨ps, vs, u⟩ := by
  have hf : ps.head? = some (ps.head hne) := List.head?_eq_some_head hne
  have hL : ps.getLast? = some (ps.getLast hne) := List.getLast?_eq_some_getLast hne
  have had := C05.allDates_eq hL
  have hper : Periods.period ps = .ok ⟨(ps.head hne).start, (ps.getLast hne).stop⟩ := by
    unfold Periods.period
    rw [hf, hL]
  have hfm := List.head_mem hne
  have hlm := List.getLast_mem hne
  have hstart : ∀ p ∈ ps, p.start ∈ ps.map (·.start) ++ [(ps.getLast hne).stop] := by
    intro p hp
    exact List.mem_append_left _ (List.mem_map.mpr ⟨p, hp, rfl⟩)
  have hstop : ∀ p ∈ ps, p.stop ∈ ps.map (·.start) ++ [(ps.getLast hne).stop] := by
    intro p hp
    obtain ⟨k, hk, rfl⟩ := List.mem_iff_getElem.mp hp
    by_cases h : k + 1 < ps.length
    · have : ps[k].stop = ps[k + 1].start := by
        have h1 : (ps.take (k + 1)).getLast? = some ps[k] := by
          rw [List.getLast?_eq_getElem?]
          simp [List.getElem?_take]
          have : min (k + 1) ps.length - 1 = k := by omega
          rw [this]
          simp [hk]
        have h2 : (ps.drop (k + 1)).head? = some ps[k + 1] := by
          rw [List.head?_drop, List.getElem?_eq_getElem h]
        exact C13.wf_split hw (k + 1) _ _ h1 h2
      rw [this]
      exact hstart _ (List.getElem_mem h)
    · have : ps.getLast hne = ps[k] := by
        rw [List.getLast_eq_getElem]
        congr 1
        omega
      rw [this]
      simp
  have hle : (ps.head hne).start < (ps.getLast hne).stop := by
    have h1 := C05.wf_first hw hf _ hlm
    have h2 := C05.wf_nonempty hw _ hlm
    omega
  obtain ⟨i, j, hij, hin⟩ := C13.period_indices hw hf hL (p := ⟨(ps.head hne).start, (ps.getLast hne).stop⟩)
    (by exact hstart (ps.head hne) hfm) (by simp) hle
  have hall : ∀ (k : Nat), k < ps.length → i ≤ k ∧ k < j := by
    intro k hk
    rw [← hin k hk]
    exact ⟨C05.wf_first hw hf _ (List.getElem_mem hk), C05.wf_last hw hL _ (List.getElem_mem hk)⟩
  have hpos : 0 < ps.length := List.length_pos_iff.mpr hne
  have hi : i = 0 := by have := hall 0 hpos; omega
  have hj : ps.length ≤ j := by have := hall (ps.length - 1) (by omega); omega
  have hsl : ∀ {β : Type} (l : List β), l.length = ps.length → Periods.slice l i j = l := by
    intro β l hl
    unfold Periods.slice
    rw [hi]
    simp
    omega
  unfold TS.forPeriods
  simp only [if_neg hne, had, Bind.bind, Except.bind, hper, hij]
  rw [if_pos]
  · rw [hsl ps rfl, hsl vs hl.symm, C13.make_ok hl]
  · rw [List.all_eq_true]
    intro p hp
    simp only [Bool.and_eq_true, decide_eq_true_eq]
    exact ⟨hstart p hp, hstop p hp⟩

theorem get_one {pow : Fl → Fl → Fl} {ev : VarMap} {reg : Reg} {rs xs : List ℚ} (hr : Regular pow ev reg rs)
    (rt : RateType) (u : EUnit) (s : TS Fl) (h : RightDay ev rs rt u xs s) :
    ∃ r q, reg.timeSeries pow = .ok r ∧ fromStreamDay s r = .ok q ∧ Right ev rs rt u xs q := by
  obtain ⟨h1, h2, zs, h3, h4, h5⟩ := h
  have hne : ev.periods ≠ [] := by
    obtain ⟨q, hq, _⟩ := built_dates hr.built
    intro h0
    rw [h0] at hq
    cases hq
  refine ⟨⟨ev.periods, rs.map some, .NONE⟩, ⟨ev.periods, zs.map some, .TONS_PER_DAY, .streamDay, rs.map some⟩, ?_, ?_,
    rfl, rfl, rfl, rfl, zs, rfl, h4, h5⟩
  · unfold Reg.timeSeries
    rw [hr.values]
    simp only [Bind.bind, Except.bind, hr.evaluator]
    exact C13.make_ok (by simp [hr.length])
  · unfold fromStreamDay
    rw [h1, for_all_periods _ _ _ hr.built.1 hne (by simp [hr.length])]
    simp only [Bind.bind, Except.bind, h2, h3]
    unfold RateTS.make
    rw [if_pos (by simp [hr.length, h4])]

theorem get_all {pow : Fl → Fl → Fl} {reg : Reg}
    {α : Type} (P : α → String) (Q : α → RateTS → Prop) (R : α → TS Fl → Prop)
    (hRQ : ∀ a s, R a s → ∃ r q, reg.timeSeries pow = .ok r ∧ fromStreamDay s r = .ok q ∧ Q a q) :
    ∀ (as : List α) (d : List (String × TS Fl)), List.Forall₂ (fun a ns => ns.1 = P a ∧ R a ns.2) as d →
      ∃ res, getEmissions pow reg d = .ok res ∧ List.Forall₂ (fun a ns => ns.1 = P a ∧ Q a ns.2) as res := by
  intro as d h
  induction h with
  | nil => exact ⟨[], rfl, .nil⟩
  | cons hab _ ih =>
    obtain ⟨res, h1, h2⟩ := ih
    obtain ⟨r, q, g1, g2, g3⟩ := hRQ _ _ hab.2
    refine ⟨(_, q) :: res, ?_, .cons ⟨hab.1, g3⟩ h2⟩
    unfold getEmissions at h1 ⊢
    rw [List.mapM_cons, h1]
    simp only [Bind.bind, Except.bind, g1, g2, Pure.pure, Except.pure]

theorem fold_all {α β : Type} (step : List (String × TS Fl) → β → Except Err (List (String × TS Fl)))
    (f : α → β) (name : α → String) (R : α → TS Fl → Prop) (G : α → Prop)
    (hstep : ∀ a, G a → ∃ s, R a s ∧ ∀ acc, step acc (f a) = .ok (dictSet (name a) s acc)) :
    ∀ (as : List α) (acc : List (String × TS Fl)), (∀ a ∈ as, G a) →
      (acc.map (·.1) ++ as.map name).Nodup →
      ∃ d, (as.map f).foldlM step acc = .ok (acc ++ d) ∧ List.Forall₂ (fun a ns => ns.1 = name a ∧ R a ns.2) as d := by
  intro as
  induction as with
  | nil => intro acc _ _; exact ⟨[], by simp [Pure.pure, Except.pure], .nil⟩
  | cons a as ih =>
    intro acc hG hnd
    obtain ⟨s, h1, h2⟩ := hstep a (hG a (by simp))
    have hfresh : name a ∉ acc.map (·.1) := by
      intro hm
      rw [List.nodup_append] at hnd
      exact hnd.2.2 _ hm _ (by simp) rfl
    obtain ⟨d, g1, g2⟩ := ih (acc ++ [(name a, s)]) (fun b hb => hG b (List.mem_cons_of_mem _ hb)) (by simpa using hnd)
    refine ⟨(name a, s) :: d, ?_, .cons ⟨rfl, h1⟩ g2⟩
    rw [List.map_cons, List.foldlM_cons, h2, C24.dictSet_fresh _ _ _ hfresh]
    simp only [Bind.bind, Except.bind]
    rw [g1]
    simp

/-! ## Properties -/

/-- **Direct emitter**, emissions with distinct names: every listed emission is reported under its name with its
stream-day rate in tonnes per day. Missing: repeated names, see `C32_repeated_name`. -/
theorem C32_direct_partial (pow : Fl → Fl → Fl) (ev : VarMap) (reg : Reg) (rs : List ℚ) (hr : Regular pow ev reg rs)
    (es : List (VentEmission × List ℚ)) (hes : ∀ e ∈ es, Listed pow ev e.1 e.2)
    (hnd : (es.map (fun e => e.1.name)).Nodup) :
    ∃ d res, directEmissions pow reg (es.map (·.1)) = .ok d ∧ getEmissions pow reg d = .ok res ∧
      List.Forall₂ (fun e ns => ns.1 = e.1.name ∧ Right ev rs e.1.rateType e.1.unit e.2 ns.2) es res := by
  obtain ⟨d, h1, h2⟩ := fold_all (ventStep pow reg) (fun e : VentEmission × List ℚ => e.1) (fun e => e.1.name)
    (fun e s => RightDay ev rs e.1.rateType e.1.unit e.2 s) (fun e => Listed pow ev e.1 e.2)
    (fun e he => vent_step hr e.1 he) es [] hes (by simpa using hnd)
  obtain ⟨res, h3, h4⟩ := get_all (fun e : VentEmission × List ℚ => e.1.name)
    (fun e s => Right ev rs e.1.rateType e.1.unit e.2 s) (fun e s => RightDay ev rs e.1.rateType e.1.unit e.2 s)
    (fun e s h => get_one hr _ _ s h) es d h2
  exact ⟨d, res, by simpa [directEmissions] using h1, h3, h4⟩

theorem dictSet_twice {α β : Type} [DecidableEq α] (k : α) (v w : β) (l : List (α × β)) :
    dictSet k w (dictSet k v l) = dictSet k w l := by
  induction l with
  | nil => simp [dictSet]
  | cons a l ih =>
    by_cases h : a.1 = k
    · simp [dictSet, h]
    · simp [dictSet, h, ih]

/-- **Finding.** When two emissions listed one after the other have the same name, the first one is not in the
result at all: the emissions are the same as if it had not been listed. -/
theorem C32_repeated_name (pow : Fl → Fl → Fl) (ev : VarMap) (reg : Reg) (rs : List ℚ) (hr : Regular pow ev reg rs)
    (before after : List VentEmission) (e e' : VentEmission) (xs xs' : List ℚ) (he : Listed pow ev e xs)
    (he' : Listed pow ev e' xs') (hname : e.name = e'.name) :
    directEmissions pow reg (before ++ e :: e' :: after) = directEmissions pow reg (before ++ e' :: after) := by
  unfold directEmissions
  rw [List.foldlM_append, List.foldlM_append]
  congr 1
  funext acc
  obtain ⟨s, _, h1⟩ := vent_step hr e he
  obtain ⟨s', _, h2⟩ := vent_step hr e' he'
  rw [List.foldlM_cons, List.foldlM_cons, h1]
  simp only [Bind.bind, Except.bind]
  rw [List.foldlM_cons, h2, h2, hname, dictSet_twice]
  rfl

/-- Under each name the series of the last emission with that name is reported. -/
theorem C32_last_wins (pow : Fl → Fl → Fl) (ev : VarMap) (reg : Reg) (rs : List ℚ) (hr : Regular pow ev reg rs)
    (before after : List (VentEmission × List ℚ)) (e : VentEmission × List ℚ)
    (hes : ∀ x ∈ before ++ e :: after, Listed pow ev x.1 x.2) (hlast : ∀ x ∈ after, x.1.name ≠ e.1.name) :
    ∃ d s, directEmissions pow reg ((before ++ e :: after).map (·.1)) = .ok d ∧ d.lookup e.1.name = some s ∧
      RightDay ev rs e.1.rateType e.1.unit e.2 s := by
  have run : ∀ (l : List (VentEmission × List ℚ)) (acc : List (String × TS Fl)),
      (∀ x ∈ l, Listed pow ev x.1 x.2) → ∃ d, (l.map (·.1)).foldlM (ventStep pow reg) acc = .ok d ∧
        ((∀ x ∈ l, x.1.name ≠ e.1.name) → d.lookup e.1.name = acc.lookup e.1.name) := by
    intro l
    induction l with
    | nil => intro acc _; exact ⟨acc, rfl, fun _ => rfl⟩
    | cons x l ih =>
      intro acc hl
      obtain ⟨s, _, h2⟩ := vent_step hr x.1 (hl x (by simp))
      obtain ⟨d, h3, h4⟩ := ih (dictSet x.1.name s acc) (fun y hy => hl y (List.mem_cons_of_mem _ hy))
      refine ⟨d, ?_, fun hne => ?_⟩
      · rw [List.map_cons, List.foldlM_cons, h2]
        exact h3
      · rw [h4 (fun y hy => hne y (List.mem_cons_of_mem _ hy)),
          C26.lookup_dictSet_ne _ _ _ _ (fun h => hne x (by simp) h.symm)]
  obtain ⟨d1, h1, _⟩ := run before [] (fun x hx => hes x (by simp [hx]))
  obtain ⟨s, hs1, hs2⟩ := vent_step hr e.1 (hes e (by simp))
  obtain ⟨d2, h2, h3⟩ := run after (dictSet e.1.name s d1) (fun x hx => hes x (by simp [hx]))
  refine ⟨d2, s, ?_, ?_, hs1⟩
  · unfold directEmissions
    rw [List.map_append, List.map_cons, List.foldlM_append, h1]
    simp only [Bind.bind, Except.bind]
    rw [List.foldlM_cons, hs2]
    exact h2
  · rw [h3 hlast, C26.lookup_dictSet_self]

/-- Oil rates: stream-day rate of the volume, in standard cubic metres per day (the only unit the YAML accepts). -/
theorem oil_rates {pow : Fl → Fl → Fl} {ev : VarMap} {reg : Reg} {rs xs : List ℚ} (hr : Regular pow ev reg rs)
    (v : VentVolume) (hu : v.unit = .STANDARD_CUBIC_METER_PER_DAY) (hv : v.rate.masked pow = .ok (xs.map some))
    (hl : xs.length = ev.periods.length) :
    ∃ ys : List ℚ, oilRates pow reg v = .ok (ys.map some) ∧ ys.length = ev.periods.length ∧
      ∀ (k : Nat) (hx : k < xs.length) (hr : k < rs.length) (hy : k < ys.length),
        StreamDay v.rateType xs[k] rs[k] ys[k] := by
  obtain ⟨ys, h1, h2, h3⟩ := stream_values hr v.rate v.rateType hv hl
  refine ⟨ys, ?_, h2, h3⟩
  have e : EUnit.to .STANDARD_CUBIC_METER_PER_DAY .STANDARD_CUBIC_METER_PER_DAY = .ok (fun a => a) := rfl
  unfold oilRates convertValues
  simp only [h1, hu, e, Bind.bind, Except.bind, RateTS.liftU, Pure.pure, Except.pure]
  simp

/-- The factor of an oil emission, in kg per standard cubic metre, over the periods. -/
structure Factor (pow : Fl → Fl → Fl) (ev : VarMap) (f : ExprInput) (fs : List ℚ) : Prop where
  values : ∃ x, f.setup = .ok x ∧ ev.evaluate pow x = .ok (fs.map some)
  length : fs.length = ev.periods.length

/-- The reported series of an oil emission: oil rate times factor, kg to tonnes. -/
def RightOil (ev : VarMap) (rs : List ℚ) (rt : RateType) (xs fs : List ℚ) (s : RateTS) : Prop :=
  s.periods = ev.periods ∧ s.unit = .TONS_PER_DAY ∧ s.rateType = .streamDay ∧ s.regularity = rs.map some ∧
  ∃ zs : List ℚ, s.values = zs.map some ∧ zs.length = ev.periods.length ∧
    ∀ (k : Nat) (hx : k < xs.length) (hr : k < rs.length) (hf : k < fs.length) (hz : k < zs.length),
      ∃ oil, StreamDay rt xs[k] rs[k] oil ∧ 1000 * zs[k] = oil * fs[k]

@[inherit_doc RightOil] def RightOilDay (ev : VarMap) (rs : List ℚ) (rt : RateType) (xs fs : List ℚ) (s : TS Fl) :
    Prop :=
  s.periods = ev.periods ∧ s.unit = .TONS_PER_DAY ∧
  ∃ zs : List ℚ, s.values = zs.map some ∧ zs.length = ev.periods.length ∧
    ∀ (k : Nat) (hx : k < xs.length) (hr : k < rs.length) (hf : k < fs.length) (hz : k < zs.length),
      ∃ oil, StreamDay rt xs[k] rs[k] oil ∧ 1000 * zs[k] = oil * fs[k]

/-- **Oil emitter**, emissions with distinct names. -/
theorem C32_oil_partial (pow : Fl → Fl → Fl) (ev : VarMap) (reg : Reg) (rs : List ℚ) (hr : Regular pow ev reg rs)
    (rate : TSE) (rt : RateType) (xs : List ℚ) (hev : rate.evaluator = ev)
    (hv : rate.masked pow = .ok (xs.map some)) (hl : xs.length = ev.periods.length)
    (es : List ((String × ExprInput) × List ℚ)) (hes : ∀ e ∈ es, Factor pow ev e.1.2 e.2)
    (hnd : (es.map (fun e => e.1.1)).Nodup) :
    ∃ d res, oilEmissions pow reg ⟨rate, .STANDARD_CUBIC_METER_PER_DAY, rt, es.map (·.1)⟩ = .ok d ∧
      getEmissions pow reg d = .ok res ∧
      List.Forall₂ (fun e ns => ns.1 = e.1.1 ∧ RightOil ev rs rt xs e.2 ns.2) es res := by
  obtain ⟨ys, h1, h2, h3⟩ := oil_rates hr ⟨rate, .STANDARD_CUBIC_METER_PER_DAY, rt, es.map (·.1)⟩ rfl hv hl
  have hconv : ∃ f, EUnit.to .KILO_PER_DAY .TONS_PER_DAY = .ok f ∧ ∀ a : ℚ, 1000 * f a = a := by
    refine ⟨_, rfl, fun a => ?_⟩
    ring
  obtain ⟨f, hf, hfa⟩ := hconv
  have hstep : ∀ e : (String × ExprInput) × List ℚ, Factor pow ev e.1.2 e.2 →
      ∃ s : TS Fl, RightOilDay ev rs rt xs e.2 s ∧
        ∀ acc, oilStep pow ⟨rate, .STANDARD_CUBIC_METER_PER_DAY, rt, es.map (·.1)⟩ (ys.map some) acc e.1 =
          .ok (dictSet e.1.1 s acc) := by
    intro e he
    obtain ⟨x, g1, g2⟩ := he.values
    refine ⟨⟨ev.periods, ((List.zipWith (· * ·) ys e.2).map f).map some, .TONS_PER_DAY⟩, ⟨rfl, rfl, _, rfl, ?_, ?_⟩, ?_⟩
    · simp [h2, he.length]
    · intro k k1 k2 k3 k4
      have k5 : k < ys.length := by omega
      refine ⟨ys[k], h3 k k1 k2 k5, ?_⟩
      rw [List.getElem_map, hfa, List.getElem_zipWith]
    · intro acc
      have hz : List.zipWith Fl.mul (ys.map some) (e.2.map some) = (List.zipWith (· * ·) ys e.2).map some := by
        rw [List.zipWith_map, List.map_zipWith]
        rfl
      unfold oilStep
      simp only [g1, hev, g2, Bind.bind, Except.bind, hz]
      unfold convertValues
      simp only [hf, RateTS.liftU, Bind.bind, Except.bind, Pure.pure, Except.pure, List.map_map, Function.comp_def,
        Option.map_some]
      rw [C13.make_ok (by simp [h2, he.length])]
  obtain ⟨d, g1, g2⟩ := fold_all (oilStep pow ⟨rate, .STANDARD_CUBIC_METER_PER_DAY, rt, es.map (·.1)⟩ (ys.map some))
    (fun e : (String × ExprInput) × List ℚ => e.1) (fun e => e.1.1) (fun e s => RightOilDay ev rs rt xs e.2 s) (fun e => Factor pow ev e.1.2 e.2)
    hstep es [] hes (by simpa using hnd)
  have hne : ev.periods ≠ [] := by
    obtain ⟨q, hq, _⟩ := built_dates hr.built
    intro h0
    rw [h0] at hq
    cases hq
  obtain ⟨res, g3, g4⟩ := get_all (fun e : (String × ExprInput) × List ℚ => e.1.1)
    (fun e s => RightOil ev rs rt xs e.2 s) (fun e s => RightOilDay ev rs rt xs e.2 s) (by
      intro e s h
      obtain ⟨a1, a2, zs, a3, a4, a5⟩ := h
      refine ⟨⟨ev.periods, rs.map some, .NONE⟩,
        ⟨ev.periods, zs.map some, .TONS_PER_DAY, .streamDay, rs.map some⟩, ?_, ?_, rfl, rfl, rfl, rfl, zs, rfl, a4, a5⟩
      · unfold Reg.timeSeries
        rw [hr.values]
        simp only [Bind.bind, Except.bind, hr.evaluator]
        exact C13.make_ok (by simp [hr.length])
      · unfold fromStreamDay
        rw [a1, for_all_periods _ _ _ hr.built.1 hne (by simp [hr.length])]
        simp only [Bind.bind, Except.bind, a2, a3]
        unfold RateTS.make
        rw [if_pos (by simp [hr.length, a4])]) es d g2
  refine ⟨d, res, ?_, g3, g4⟩
  unfold oilEmissions
  rw [h1]
  simp only [Bind.bind, Except.bind]
  simpa using g1

/-! ## Example -/

/-- Two periods, rate 3000 kg per calendar day at regularities 1/2 and 1. -/
def sampleRate : TSE := ⟨⟨[.num 3000], .leaf (.num 3000)⟩, C21.sampleEv, none⟩

def sampleReg : Reg := ⟨⟨0, 20⟩, C21.sampleEv, [(⟨0, 20⟩, ⟨[.ref "r"], .leaf (.ref "r")⟩)]⟩

example : Regular (fun _ _ => none) C21.sampleEv sampleReg [1/2, 1] :=
  ⟨⟨by decide, by rfl⟩, rfl, by decide +kernel, rfl⟩

example : Listed (fun _ _ => none) C21.sampleEv ⟨"co2", sampleRate, .KILO_PER_DAY, .calendarDay⟩ [3000, 3000] :=
  ⟨rfl, by decide +kernel, rfl, Or.inr rfl⟩

example : directEmissions (fun _ _ => none) sampleReg
    [⟨"co2", sampleRate, .KILO_PER_DAY, .calendarDay⟩, ⟨"ch4", sampleRate, .TONS_PER_DAY, .streamDay⟩] =
    .ok [("co2", ⟨[⟨0, 10⟩, ⟨10, 20⟩], [some 6, some 3], .TONS_PER_DAY⟩),
      ("ch4", ⟨[⟨0, 10⟩, ⟨10, 20⟩], [some 3000, some 3000], .TONS_PER_DAY⟩)] := by decide +kernel

/-- Both emissions are listed, only the second one is reported. -/
example : directEmissions (fun _ _ => none) sampleReg
    [⟨"co2", sampleRate, .KILO_PER_DAY, .streamDay⟩, ⟨"co2", sampleRate, .TONS_PER_DAY, .streamDay⟩] =
    .ok [("co2", ⟨[⟨0, 10⟩, ⟨10, 20⟩], [some 3000, some 3000], .TONS_PER_DAY⟩)] := by decide +kernel

example : oilEmissions (fun _ _ => none) sampleReg
    ⟨sampleRate, .STANDARD_CUBIC_METER_PER_DAY, .calendarDay, [("ch4", .number 2)]⟩ =
    .ok [("ch4", ⟨[⟨0, 10⟩, ⟨10, 20⟩], [some 12, some 6], .TONS_PER_DAY⟩)] := by decide +kernel

end Verif.C32
