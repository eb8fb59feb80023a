import Verif.Model.Report
import Verif.Props.C05
import Verif.Props.C95

/-!
# C96: a compressor's report shows what was computed, and what was requested

The report has a series for every stage. The specification goes through it time step by time step: what it shows for a
stage is what was computed for that stage in that time step, and nothing else. On top of that come statements about
energy: how the loss in recirculation relates to the power, and how the power of the train relates to the powers of its
stages. The pressures that are shown as requested from a compressor in a system are those of the operational setting
that was used.
-/

namespace Verif.C96
open Verif.Time Verif.Rates Verif.Charts Verif.Report

/-! ## Specification -/

/-- What a report says about the stream at one end of a stage, from the stream through the train (`net`), the streams
including recirculation (`gross`) and the streams the standard rates are taken from. -/
structure ShowsStream (c : Cond) (t : ℕ) (net gross netIn grossIn : Option Stream) : Prop where
  pressure : c.pressure[t]? = some (net.map (·.pressure))
  density : c.density[t]? = some (net.map (·.density))
  kappa : c.kappa[t]? = some (net.map (·.kappa))
  z : c.z[t]? = some (net.map (·.z))
  temperature : c.temperature[t]? = some (net.map (·.temperature))
  actual : c.actual[t]? = some (some ((gross.map (·.volume)).getD 0))
  actualBefore : c.actualBefore[t]? = some (some ((net.map (·.volume)).getD 0))
  standard : c.standard[t]? = some (some ((grossIn.map (·.standard)).getD 0))
  standardBefore : c.standardBefore[t]? = some (some ((netIn.map (·.standard)).getD 0))

/-- What the report of a stage says about a time step. -/
structure ShowsStage (x : StageSeries) (t : ℕ) (speed : Fl) (s : StageOne) : Prop where
  energyUsage : x.energyUsage[t]? = some s.power
  power : x.power[t]? = some s.power
  mass : x.mass[t]? = some (some ((s.inletAsv.map (·.mass)).getD 0))
  massBefore : x.massBefore[t]? = some (some ((s.inlet.map (·.mass)).getD 0))
  inlet : ShowsStream x.inlet t s.inlet s.inletAsv s.inlet s.inletAsv
  outlet : ShowsStream x.outlet t s.outlet s.outletAsv s.inlet s.inletAsv
  change : x.change[t]? = some s.change
  head : x.head[t]? = some s.head
  efficiency : x.efficiency[t]? = some s.efficiency
  changeBefore : x.changeBefore[t]? = some s.changeBefore
  speed : x.speed[t]? = some speed
  loss : x.loss[t]? = some (s.change.map fun c =>
    ((s.inletAsv.map (·.mass)).getD 0 - (s.inlet.map (·.mass)).getD 0) * c / 3600000)
  valid : x.valid[t]? = some (decide (s.area = some .internal ∨ s.pointValid = true))
  area : x.area[t]? = some s.area
  recirculates : x.recirculates[t]? = some (decide (s.recirculates = some true))
  rateExceeds : x.rateExceeds[t]? = some (decide (s.rateExceeds = some true))
  choked : x.choked[t]? = some (decide (s.choked = some true))
  headExceeds : x.headExceeds[t]? = some (decide (s.headExceeds = some true))

/-- All time steps have the same, positive, number of stages. -/
structure Regular (results : List TrainOne) (n : ℕ) : Prop where
  some : results ≠ []
  pos : 0 < n
  same : ∀ r ∈ results, r.stages.length = n

/-! ## Collecting -/

theorem getD_true (o : Option Bool) : o.getD false = decide (o = some true) := by
  rcases o with _ | b
  · rfl
  · cases b <;> rfl

theorem orZero_eq (f : Stream → ℚ) (o : Option Stream) : orZero f o = (o.map f).getD 0 := by
  cases o <;> rfl

theorem foldl_max_const (ns : List ℕ) (n : ℕ) (h : ∀ m ∈ ns, m = n) : ns.foldl max n = n := by
  induction ns with
  | nil => rfl
  | cons a t ih =>
    rw [List.foldl_cons, h a (by simp), max_self]
    exact ih fun m hm => h m (by simp [hm])

theorem le_foldl_max (ns : List ℕ) : ∀ n, n ≤ ns.foldl max n ∧ ∀ m ∈ ns, m ≤ ns.foldl max n := by
  induction ns with
  | nil => intro n; exact ⟨le_refl _, fun m hm => by simp at hm⟩
  | cons a t ih =>
    intro n
    obtain ⟨h1, h2⟩ := ih (max n a)
    rw [List.foldl_cons]
    refine ⟨le_trans (le_max_left _ _) h1, fun m hm => ?_⟩
    rcases List.mem_cons.1 hm with rfl | hm
    · exact le_trans (le_max_right _ _) h1
    · exact h2 m hm

/-- Picking a stage that all time steps have. -/
theorem pick_ok (results : List TrainOne) (i : ℕ) (h : ∀ r ∈ results, i < r.stages.length) :
    ∃ xs, pick results i = .ok xs ∧ xs.length = results.length ∧
      ∀ (t : ℕ) (r : TrainOne) (s : StageOne), results[t]? = some r → r.stages[i]? = some s → xs[t]? = some (r, s) := by
  obtain ⟨xs, hx⟩ := C95.mapM_total (fun r : TrainOne =>
    match r.stages[i]? with
    | none => Except.error Err.indexError
    | some s => .ok (r, s)) results (by
      intro r hr
      rw [List.getElem?_eq_getElem (h r hr)]
      exact ⟨_, rfl⟩)
  obtain ⟨hlen, hidx⟩ := C95.mapM_idx _ _ _ hx
  refine ⟨xs, hx, hlen, fun t r s hr hs => ?_⟩
  have ht : t < xs.length := by
    rw [hlen]
    exact (List.getElem?_eq_some_iff.1 hr).1
  have hb := List.getElem?_eq_getElem ht
  have := hidx t r _ hr hb
  simp only [hs] at this
  rw [hb, ← Except.ok.inj this]

theorem shows_of (xs : List (TrainOne × StageOne)) (t : ℕ) (r : TrainOne) (s : StageOne) (h : xs[t]? = some (r, s)) :
    ShowsStage (stageSeries xs) t r.speed s := by
  constructor <;> try constructor
  all_goals
    simp only [stageSeries, List.getElem?_map, h, Option.map_some, orNan, orZero_eq, getD_true, StageOne.within]
  · rcases hc : s.change with _ | c
    · simp [StageOne.loss, Fl.mul, hc]
    · simp only [StageOne.loss, Fl.mul, hc, orZero_eq, Option.bind_some, Option.map_some]
      congr 2
      ring
  · simp [Bool.decide_or]

/-- The stages of a regular list of results. -/
theorem allStages_ok (results : List TrainOne) (n : ℕ) (h : Regular results n) :
    ∃ ss, allStages results = .ok ss ∧ ss.length = n ∧
      ∀ (i : ℕ) (x : StageSeries), ss[i]? = some x → ∃ xs, pick results i = .ok xs ∧ x = stageSeries xs := by
  obtain ⟨r0, rs, rfl⟩ := List.exists_cons_of_ne_nil h.some
  have h0 : r0.stages.length = n := h.same r0 (by simp)
  have hmax : (rs.map (·.stages.length)).foldl max r0.stages.length = n := by
    rw [h0]
    refine foldl_max_const _ _ fun m hm => ?_
    obtain ⟨r, hr, rfl⟩ := List.mem_map.1 hm
    exact h.same r (by simp [hr])
  obtain ⟨ss, hss⟩ := C95.mapM_total (fun i => (pick (r0 :: rs) i).map stageSeries) (List.range n) (by
    intro i hi
    obtain ⟨xs, hx, _⟩ := pick_ok (r0 :: rs) i fun r hr => by rw [h.same r hr]; exact List.mem_range.1 hi
    exact ⟨_, by rw [hx]; rfl⟩)
  obtain ⟨hlen, hidx⟩ := C95.mapM_idx _ _ _ hss
  rw [List.length_range] at hlen
  refine ⟨ss, ?_, hlen, fun i x hx => ?_⟩
  · simp only [allStages, List.map_cons, hmax]
    exact hss
  · have hi : i < n := by rw [← hlen]; exact (List.getElem?_eq_some_iff.1 hx).1
    have := hidx i i x (by simp [hi]) hx
    obtain ⟨xs, hp, _⟩ := pick_ok (r0 :: rs) i fun r hr => by rw [h.same r hr]; exact hi
    rw [hp] at this
    exact ⟨xs, hp, (Except.ok.inj this).symm⟩

/-- The train conditions can be made when all time steps have stages. -/
theorem trainInlet_ok (results : List TrainOne) (n : ℕ) (h : Regular results n) (first : StageSeries) :
    ∃ c, trainInlet results first = .ok c ∧ c.standard = first.inlet.standardBefore ∧
      c.actual.length = results.length ∧
      ∀ (t : ℕ) (r : TrainOne), results[t]? = some r →
        c.pressure[t]? = some (r.inlet.map (·.pressure)) ∧ c.density[t]? = some (r.inlet.map (·.density)) ∧
        c.kappa[t]? = some (r.inlet.map (·.kappa)) ∧ c.z[t]? = some (r.inlet.map (·.z)) ∧
        c.temperature[t]? = some (r.inlet.map (·.temperature)) ∧
        c.actualBefore[t]? = some none ∧ c.standardBefore[t]? = some none ∧
        ∀ s, r.stages.head? = some s → c.actual[t]? = some (some ((s.inlet.map (·.volume)).getD 0)) := by
  obtain ⟨a, ha⟩ := C95.mapM_total (fun r : TrainOne => r.inletActual) results (by
      intro r hr
      have : r.stages ≠ [] := by
        intro e
        have := h.same r hr
        rw [e] at this
        have := h.pos
        simp at *
        omega
      rw [TrainOne.inletActual, List.head?_eq_some_head this]
      exact ⟨_, rfl⟩)
  obtain ⟨hlen, hidx⟩ := C95.mapM_idx _ _ _ ha
  refine ⟨_, by rw [trainInlet, ha]; rfl, rfl, hlen, fun t r hr => ?_⟩
  refine ⟨by simp [hr, orNan], by simp [hr, orNan], by simp [hr, orNan], by simp [hr, orNan], by simp [hr, orNan],
    by rw [List.getElem?_map, hr]; rfl, by rw [List.getElem?_map, hr]; rfl, fun s hs => ?_⟩
  have ht : t < a.length := by rw [hlen]; exact (List.getElem?_eq_some_iff.1 hr).1
  have hb := List.getElem?_eq_getElem ht
  have := hidx t r _ hr hb
  simp only [TrainOne.inletActual, hs] at this
  change a[t]? = _
  rw [hb, ← Except.ok.inj this, orZero_eq]

@[inherit_doc trainInlet_ok]
theorem trainOutlet_ok (results : List TrainOne) (n : ℕ) (h : Regular results n) (last : StageSeries) :
    ∃ c, trainOutlet results last = .ok c ∧ c.standard = last.outlet.standardBefore ∧
      c.actual.length = results.length ∧
      ∀ (t : ℕ) (r : TrainOne), results[t]? = some r →
        c.pressure[t]? = some (r.outlet.map (·.pressure)) ∧ c.density[t]? = some (r.outlet.map (·.density)) ∧
        c.kappa[t]? = some (r.outlet.map (·.kappa)) ∧ c.z[t]? = some (r.outlet.map (·.z)) ∧
        c.temperature[t]? = some (r.outlet.map (·.temperature)) ∧
        c.actualBefore[t]? = some none ∧ c.standardBefore[t]? = some none ∧
        ∀ s, r.stages.getLast? = some s → c.actual[t]? = some (some ((s.outlet.map (·.volume)).getD 0)) := by
  obtain ⟨a, ha⟩ := C95.mapM_total (fun r : TrainOne => r.outletActual) results (by
      intro r hr
      have : r.stages ≠ [] := by
        intro e
        have := h.same r hr
        rw [e] at this
        have := h.pos
        simp at *
        omega
      rw [TrainOne.outletActual, List.getLast?_eq_some_getLast this]
      exact ⟨_, rfl⟩)
  obtain ⟨hlen, hidx⟩ := C95.mapM_idx _ _ _ ha
  refine ⟨_, by rw [trainOutlet, ha]; rfl, rfl, hlen, fun t r hr => ?_⟩
  refine ⟨by simp [hr, orNan], by simp [hr, orNan], by simp [hr, orNan], by simp [hr, orNan], by simp [hr, orNan],
    by rw [List.getElem?_map, hr]; rfl, by rw [List.getElem?_map, hr]; rfl, fun s hs => ?_⟩
  have ht : t < a.length := by rw [hlen]; exact (List.getElem?_eq_some_iff.1 hr).1
  have hb := List.getElem?_eq_getElem ht
  have := hidx t r _ hr hb
  simp only [TrainOne.outletActual, hs] at this
  change a[t]? = _
  rw [hb, ← Except.ok.inj this, orZero_eq]

/-! ## The report -/

/-- What the report says about one end of the train: the conditions of the train's own stream there, the actual rate
through the stage at that end without recirculation, and the standard rate into that stage; the rates before
anti-surge are left open. -/
structure ShowsEnd (c : Cond) (t : ℕ) (stream net netIn : Option Stream) : Prop where
  pressure : c.pressure[t]? = some (stream.map (·.pressure))
  density : c.density[t]? = some (stream.map (·.density))
  kappa : c.kappa[t]? = some (stream.map (·.kappa))
  z : c.z[t]? = some (stream.map (·.z))
  temperature : c.temperature[t]? = some (stream.map (·.temperature))
  actual : c.actual[t]? = some (some ((net.map (·.volume)).getD 0))
  standard : c.standard[t]? = some (some ((netIn.map (·.standard)).getD 0))
  actualBefore : c.actualBefore[t]? = some none
  standardBefore : c.standardBefore[t]? = some none

/-- **C96 (the report).** When all time steps have the same number of stages the report is made. It has a series for each
stage, and at each time step the series show what was computed for that stage then; its inlet and outlet are those of the
first and the last stage. -/
theorem C96_report (factor constant : ℚ) (results : List TrainOne) (n : ℕ) (h : Regular results n) :
    ∃ x, trainSeries factor constant results = .ok x ∧ x.stages.length = n ∧
      x.power.length = results.length ∧ x.energyUsage = x.power ∧
      (∀ (t i : ℕ) (r : TrainOne) (s : StageOne) (y : StageSeries), results[t]? = some r → r.stages[i]? = some s →
        x.stages[i]? = some y → ShowsStage y t r.speed s) ∧
      (∀ (t : ℕ) (r : TrainOne) (s : StageOne), results[t]? = some r → r.stages.head? = some s →
        ShowsEnd x.inlet t r.inlet s.inlet s.inlet) ∧
      (∀ (t : ℕ) (r : TrainOne) (s : StageOne), results[t]? = some r → r.stages.getLast? = some s →
        ShowsEnd x.outlet t r.outlet s.outlet s.inlet) := by
  obtain ⟨ss, hss, hlen, hst⟩ := allStages_ok results n h
  have hne : ss ≠ [] := by
    intro e
    rw [e] at hlen
    have := h.pos
    simp at hlen
    omega
  have hf := List.head?_eq_some_head hne
  have hl := List.getLast?_eq_some_getLast hne
  obtain ⟨ci, hci, hi1, -, hi2⟩ := trainInlet_ok results n h (ss.head hne)
  obtain ⟨co, hco, ho1, -, ho2⟩ := trainOutlet_ok results n h (ss.getLast hne)
  have hfrom : fromResults results = .ok (ci, co, ss) := by
    simp only [fromResults, hss, hf, hl, hci, hco, Bind.bind, Except.bind, pure, Except.pure]
  have hstage : ∀ (t i : ℕ) (r : TrainOne) (s : StageOne) (y : StageSeries), results[t]? = some r →
      r.stages[i]? = some s → ss[i]? = some y → ShowsStage y t r.speed s := by
    intro t i r s y hr hs hy
    obtain ⟨xs, hp, rfl⟩ := hst i y hy
    have hi : i < n := by rw [← hlen]; exact (List.getElem?_eq_some_iff.1 hy).1
    obtain ⟨xs', hp', -, hx⟩ := pick_ok results i fun r hr => by rw [h.same r hr]; exact hi
    rw [hp] at hp'
    cases Except.ok.inj hp'
    exact shows_of xs t r s (hx t r s hr hs)
  refine ⟨_, by simp only [trainSeries, hfrom, Bind.bind, Except.bind, pure, Except.pure]; rfl, hlen, by simp, rfl,
    hstage, fun t r s hr hs => ?_, fun t r s hr hs => ?_⟩
  · obtain ⟨a1, a2, a3, a4, a5, a6, a7, a8⟩ := hi2 t r hr
    have h0 : r.stages[0]? = some s := by rw [← hs, List.head?_eq_getElem?]
    have h0' : ss[0]? = some (ss.head hne) := by rw [← hf, List.head?_eq_getElem?]
    have := hstage t 0 r s _ hr h0 h0'
    exact ⟨a1, a2, a3, a4, a5, a8 s hs, by rw [hi1]; exact this.inlet.standardBefore, a6, a7⟩
  · obtain ⟨a1, a2, a3, a4, a5, a6, a7, a8⟩ := ho2 t r hr
    have hrl : r.stages.length = n := h.same r (List.mem_of_getElem? hr)
    have h0 : r.stages[n - 1]? = some s := by rw [← hs, List.getLast?_eq_getElem?, hrl]
    have h0' : ss[n - 1]? = some (ss.getLast hne) := by rw [← hl, List.getLast?_eq_getElem?, hlen]
    have := hstage t (n - 1) r s _ hr h0 h0'
    exact ⟨a1, a2, a3, a4, a5, a8 s hs, by rw [ho1]; exact this.outlet.standardBefore, a6, a7⟩

/-- **C96 (no report).** There is no report without time steps, without stages, or when a time step lacks a stage that
another has. -/
theorem C96_no_report (factor constant : ℚ) (results : List TrainOne) :
    (results = [] → trainSeries factor constant results = .error .valueError) ∧
    (∀ r ∈ results, ∀ r' ∈ results, r.stages.length < r'.stages.length →
      trainSeries factor constant results = .error .indexError) ∧
    (results ≠ [] → (∀ r ∈ results, r.stages = []) → trainSeries factor constant results = .error .indexError) := by
  have key : ∀ e, allStages results = .error e → trainSeries factor constant results = .error e := by
    intro e he
    simp only [trainSeries, fromResults, he, Bind.bind, Except.bind]
  refine ⟨fun h => key _ (by subst h; rfl), fun r hr r' hr' hlt => key _ ?_, fun hne h => ?_⟩
  · obtain ⟨r0, rs, rfl⟩ := List.exists_cons_of_ne_nil (List.ne_nil_of_mem hr)
    have hmax : r'.stages.length ≤ (rs.map (·.stages.length)).foldl max r0.stages.length := by
      obtain ⟨h1, h2⟩ := le_foldl_max (rs.map (·.stages.length)) r0.stages.length
      rcases List.mem_cons.1 hr' with rfl | hm
      · exact h1
      · exact h2 _ (List.mem_map.2 ⟨r', hm, rfl⟩)
    simp only [allStages, List.map_cons]
    have herr : ∀ (l : List TrainOne) (i : ℕ), (∃ q ∈ l, q.stages.length ≤ i) → pick l i = .error .indexError := by
      intro l i
      induction l with
      | nil => rintro ⟨q, hq, -⟩; simp at hq
      | cons a t ih =>
        rintro ⟨q, hq, hqi⟩
        unfold pick
        rw [List.mapM_cons]
        rcases hs : a.stages[i]? with _ | s
        · simp only [Bind.bind, Except.bind]
        · have hq' : q ∈ t := by
            rcases List.mem_cons.1 hq with rfl | hq'
            · rw [List.getElem?_eq_none_iff.2 hqi] at hs
              cases hs
            · exact hq'
          have := ih ⟨q, hq', hqi⟩
          unfold pick at this
          rw [this]
          rfl
    have hgen : ∀ l : List ℕ, (∃ i ∈ l, r.stages.length ≤ i) →
        l.mapM (fun i => (pick (r0 :: rs) i).map stageSeries) = .error .indexError := by
      intro l
      induction l with
      | nil => rintro ⟨i, hi, -⟩; simp at hi
      | cons a t ih =>
        rintro ⟨i, hi, hri⟩
        rw [List.mapM_cons]
        by_cases ha : ∃ q ∈ r0 :: rs, q.stages.length ≤ a
        · rw [herr _ _ ha]
          rfl
        · push Not at ha
          obtain ⟨xs, hx, -⟩ := pick_ok (r0 :: rs) a ha
          rw [hx]
          have hi' : i ∈ t := by
            rcases List.mem_cons.1 hi with rfl | hi'
            · exact absurd (ha r hr) (by omega)
            · exact hi'
          rw [ih ⟨i, hi', hri⟩]
          rfl
    exact hgen _ ⟨r.stages.length, List.mem_range.2 (lt_of_lt_of_le hlt hmax), le_refl _⟩
  · obtain ⟨r0, rs, rfl⟩ := List.exists_cons_of_ne_nil hne
    have h0 : r0.stages.length = 0 := by rw [h r0 (by simp)]; rfl
    have hmax : (rs.map (·.stages.length)).foldl max r0.stages.length = 0 := by
      rw [h0]
      refine foldl_max_const _ _ fun m hm => ?_
      obtain ⟨r, hr, rfl⟩ := List.mem_map.1 hm
      rw [h r (by simp [hr])]
      rfl
    have : allStages (r0 :: rs) = .ok [] := by
      simp only [allStages, List.map_cons, hmax]
      rfl
    simp only [trainSeries, fromResults, this, Bind.bind, Except.bind, List.head?_nil]

/-- **C96 (time steps).** What the report says about a time step depends on that time step alone. -/
theorem C96_local (factor constant : ℚ) (rs rs' : List TrainOne) (n : ℕ) (h : Regular rs n) (h' : Regular rs' n)
    (t t' : ℕ) (r : TrainOne) (hr : rs[t]? = some r) (hr' : rs'[t']? = some r) :
    ∃ x x', trainSeries factor constant rs = .ok x ∧ trainSeries factor constant rs' = .ok x' ∧
      x.power[t]? = x'.power[t']? ∧
      ∀ (i : ℕ) (y y' : StageSeries), x.stages[i]? = some y → x'.stages[i]? = some y' →
        y.power[t]? = y'.power[t']? ∧ y.loss[t]? = y'.loss[t']? ∧ y.valid[t]? = y'.valid[t']? ∧
        y.inlet.pressure[t]? = y'.inlet.pressure[t']? ∧ y.outlet.pressure[t]? = y'.outlet.pressure[t']? ∧
        y.inlet.actual[t]? = y'.inlet.actual[t']? ∧ y.speed[t]? = y'.speed[t']? := by
  have main : ∀ (l : List TrainOne), Regular l n → ∀ u : ℕ, l[u]? = some r →
      ∃ x, trainSeries factor constant l = .ok x ∧ x.power[u]? = some (adjusted factor constant r.power) ∧
        ∀ (i : ℕ) (y : StageSeries), x.stages[i]? = some y → ∃ s, r.stages[i]? = some s ∧
          ShowsStage y u r.speed s := by
    intro l hl u hu
    obtain ⟨x, hx, hxl, -, -, hshow, -, -⟩ := C96_report factor constant l n hl
    refine ⟨x, hx, ?_, fun i y hy => ?_⟩
    · have hx2 := hx
      simp only [trainSeries, Bind.bind, Except.bind] at hx2
      rcases hfr : fromResults l with e | ⟨ci, co, st⟩
      · rw [hfr] at hx2; cases hx2
      rw [hfr] at hx2
      cases Except.ok.inj hx2
      simp [hu]
    · have hir : i < r.stages.length := by
        rw [hl.same r (List.mem_of_getElem? hu), ← hxl]
        exact (List.getElem?_eq_some_iff.1 hy).1
      exact ⟨_, List.getElem?_eq_getElem hir, hshow u i r _ y hu (List.getElem?_eq_getElem hir) hy⟩
  obtain ⟨x, hx, hp, hs⟩ := main rs h t hr
  obtain ⟨x', hx', hp', hs'⟩ := main rs' h' t' hr'
  refine ⟨x, x', hx, hx', by rw [hp, hp'], fun i y y' hy hy' => ?_⟩
  obtain ⟨s, h1, h2⟩ := hs i y hy
  obtain ⟨s', h1', h2'⟩ := hs' i y' hy'
  rw [h1] at h1'
  cases Option.some.inj h1'
  exact ⟨by rw [h2.power, h2'.power], by rw [h2.loss, h2'.loss], by rw [h2.valid, h2'.valid],
    by rw [h2.inlet.pressure, h2'.inlet.pressure], by rw [h2.outlet.pressure, h2'.outlet.pressure],
    by rw [h2.inlet.actual, h2'.inlet.actual], by rw [h2.speed, h2'.speed]⟩

/-! ## Power, losses and validity -/

/-- The parts of the report in terms of the single results. -/
theorem report_parts (factor constant : ℚ) (results : List TrainOne) (n : ℕ) (h : Regular results n) (x : TrainSeries)
    (hx : trainSeries factor constant results = .ok x) :
    x.power = results.map (fun r => adjusted factor constant r.power) ∧ x.noFailure = results.map (·.noFailure) ∧
    x.stages.length = n ∧
    ∀ (t i : ℕ) (r : TrainOne) (s : StageOne) (y : StageSeries), results[t]? = some r → r.stages[i]? = some s →
        x.stages[i]? = some y → ShowsStage y t r.speed s := by
  obtain ⟨x', hx', hlen, -, -, hs, -, -⟩ := C96_report factor constant results n h
  rw [hx] at hx'
  cases Except.ok.inj hx'
  refine ⟨?_, ?_, hlen, hs⟩ <;>
  · simp only [trainSeries, Bind.bind, Except.bind] at hx
    rcases hfr : fromResults results with e | ⟨ci, co, st⟩
    · rw [hfr] at hx; cases hx
    rw [hfr] at hx
    cases Except.ok.inj hx
    rfl

/-- A column of the report, from the single results. -/
theorem column {β : Type} (f : StageSeries → List β) (g : StageOne → β) (ss : List StageSeries) (l : List StageOne)
    (hlen : ss.length = l.length) (t : ℕ)
    (h : ∀ (i : ℕ) (s : StageOne) (y : StageSeries), l[i]? = some s → ss[i]? = some y → (f y)[t]? = some (g s)) :
    (ss.map f).map (fun v => v[t]?) = (l.map g).map some := by
  apply List.ext_getElem?
  intro i
  simp only [List.getElem?_map, Option.map_map]
  by_cases hi : i < l.length
  · have h1 := List.getElem?_eq_getElem hi
    have h2 := List.getElem?_eq_getElem (show i < ss.length by rw [hlen]; exact hi)
    rw [h1, h2]
    simp [h i _ _ h1 h2]
  · rw [List.getElem?_eq_none_iff.2 (by omega), List.getElem?_eq_none_iff.2 (by omega)]
    rfl

/-- Combining columns element by element. -/
theorem foldl_zip {α : Type} (op : α → α → α) (vs : List (List α)) (ws : List α) (t : ℕ)
    (h : vs.map (fun v => v[t]?) = ws.map some) : ∀ (acc : List α) (a : α), acc[t]? = some a →
    (vs.foldl (List.zipWith op) acc)[t]? = some (ws.foldl op a) := by
  induction vs generalizing ws with
  | nil =>
    intro acc a ha
    cases ws with
    | nil => exact ha
    | cons w ws => simp at h
  | cons v vs ih =>
    intro acc a ha
    cases ws with
    | nil => simp at h
    | cons w ws =>
      rw [List.map_cons, List.map_cons] at h
      obtain ⟨hv, ht⟩ := List.cons.inj h
      rw [List.foldl_cons, List.foldl_cons]
      refine ih ws ht _ _ ?_
      rw [List.getElem?_zipWith, ha, hv]

theorem flSum_some (ps : List ℚ) : flSum (ps.map some) = some ps.sum := by
  induction ps with
  | nil => rfl
  | cons p ps ih => rw [List.map_cons, flSum, ih]; simp [Fl.add]

theorem flSum_none (l : List Fl) (h : none ∈ l) : flSum l = none := by
  induction l with
  | nil => simp at h
  | cons p ps ih =>
    rw [flSum]
    rcases List.mem_cons.1 h with h | h
    · rw [← h]; rfl
    · rw [ih h]; cases p <;> rfl

/-- **C96 (power).** The reported power of the train is the sum of the powers reported for its stages, adjusted when it is
positive. It is NaN when a stage's is. Without adjustment it is the sum. -/
theorem C96_power (factor constant : ℚ) (results : List TrainOne) (n : ℕ) (h : Regular results n) (x : TrainSeries)
    (hx : trainSeries factor constant results = .ok x) (t : ℕ) (ht : t < results.length) :
    (∀ ps : List ℚ, x.stages.map (fun y => y.power[t]?) = ps.map (fun p => some (some p)) →
      x.power[t]? = some (some (if 0 < ps.sum then factor * ps.sum + constant else ps.sum)) ∧
      (factor = 1 → constant = 0 → x.power[t]? = some (some ps.sum))) ∧
    (some none ∈ x.stages.map (fun y => y.power[t]?) → x.power[t]? = some none) := by
  obtain ⟨hp, -, hlen, hs⟩ := report_parts factor constant results n h x hx
  have hr := List.getElem?_eq_getElem ht
  have hcol := column (·.power) (·.power) x.stages (results[t]).stages
    (by rw [hlen, h.same _ (List.getElem_mem ht)]) t (fun i s y h1 h2 => (hs t i _ s y hr h1 h2).power)
  rw [List.map_map] at hcol
  have hcol' : x.stages.map (fun y => y.power[t]?) = ((results[t]).stages.map (·.power)).map some := hcol
  have hpt : x.power[t]? = some (adjusted factor constant (results[t]).power) := by
    rw [hp, List.getElem?_map, hr]; rfl
  constructor
  · intro ps hps
    rw [hps] at hcol'
    have he : (results[t]).stages.map (·.power) = ps.map some := by
      have : (ps.map some).map some = ((results[t]).stages.map (·.power)).map some := by
        rw [← hcol', List.map_map]; rfl
      exact (List.map_injective_iff.2 (Option.some_injective _) this).symm
    have hsum : (results[t]).power = some ps.sum := by rw [TrainOne.power, he, flSum_some]
    rw [hpt, hsum]
    refine ⟨?_, fun h1 h2 => ?_⟩
    · simp only [adjusted]
      by_cases h0 : 0 < ps.sum
      · rw [if_pos h0, if_pos h0, mul_comm]
      · rw [if_neg h0, if_neg h0]
    · subst h1 h2
      simp [adjusted]
  · intro hn
    rw [hcol'] at hn
    have hn' : none ∈ (results[t]).stages.map (·.power) := by
      obtain ⟨a, ha, hab⟩ := List.mem_map.1 hn
      cases Option.some.inj hab
      exact ha
    rw [hpt, TrainOne.power, flSum_none _ hn']
    rfl

/-- **C96 (recirculation).** Where the reported power of a stage is the gross mass rate times the change in enthalpy, the
reported loss is the share of it that goes into the recirculated gas. It is between zero and the power, and zero exactly
when nothing is recirculated or the gas gets no energy. -/
theorem C96_loss (factor constant : ℚ) (results : List TrainOne) (n : ℕ) (h : Regular results n) (x : TrainSeries)
    (hx : trainSeries factor constant results = .ok x) (t i : ℕ) (y : StageSeries) (hy : x.stages[i]? = some y)
    (net gross c p : ℚ) (hm : y.massBefore[t]? = some (some net)) (hg : y.mass[t]? = some (some gross))
    (hc : y.change[t]? = some (some c)) (hpow : y.power[t]? = some (some p)) (hcon : p = gross * c / 3600000) :
    ∃ l, y.loss[t]? = some (some l) ∧ l * gross = p * (gross - net) ∧
      (0 ≤ net → net ≤ gross → 0 ≤ c → 0 ≤ l ∧ l ≤ p) ∧ (l = 0 ↔ gross = net ∨ c = 0) := by
  obtain ⟨-, -, hlen, hs⟩ := report_parts factor constant results n h x hx
  have hi : i < n := by rw [← hlen]; exact (List.getElem?_eq_some_iff.1 hy).1
  have ht : t < results.length := by
    by_contra hcontra
    obtain ⟨ss, hss, -, hst⟩ := allStages_ok results n h
    have hx2 := hx
    simp only [trainSeries, Bind.bind, Except.bind] at hx2
    rcases hfr : fromResults results with e | ⟨ci, co, st⟩
    · rw [hfr] at hx2; cases hx2
    rw [hfr] at hx2
    cases Except.ok.inj hx2
    have hst2 : st = ss := by
      simp only [fromResults, hss, Bind.bind, Except.bind] at hfr
      split at hfr
      · split at hfr
        · cases hfr
        · split at hfr
          · cases hfr
          · cases Except.ok.inj hfr; rfl
      · cases hfr
    subst hst2
    obtain ⟨xs, hpk, rfl⟩ := hst i y hy
    obtain ⟨xs', hpk', hl, -⟩ := pick_ok results i fun r hr => by rw [h.same r hr]; exact hi
    rw [hpk] at hpk'
    cases Except.ok.inj hpk'
    have := (List.getElem?_eq_some_iff.1 hpow).1
    simp only [stageSeries, List.length_map] at this
    omega
  have hr := List.getElem?_eq_getElem ht
  have hir : i < (results[t]).stages.length := by rw [h.same _ (List.getElem_mem ht)]; exact hi
  have hsh := hs t i _ _ y hr (List.getElem?_eq_getElem hir) hy
  set s := (results[t]).stages[i]
  have e1 := hsh.massBefore
  have e2 := hsh.mass
  have e3 := hsh.change
  have e4 := hsh.loss
  rw [hm] at e1
  rw [hg] at e2
  rw [hc] at e3
  have e1' := Option.some.inj (Option.some.inj e1)
  have e2' := Option.some.inj (Option.some.inj e2)
  rw [← e1', ← e2', ← Option.some.inj e3] at e4
  refine ⟨_, e4, ?_, fun h0 h1 h2 => ?_, ?_⟩
  · rw [hcon]; ring
  · rw [hcon]
    have h3 : 0 ≤ (gross - net) * c := mul_nonneg (by linarith) h2
    have h4 : (gross - net) * c ≤ gross * c := mul_le_mul_of_nonneg_right (by linarith) h2
    exact ⟨by positivity, by linarith⟩
  · constructor
    · intro h0
      have : (gross - net) * c = 0 := by linarith
      rcases mul_eq_zero.1 this with h5 | h5
      · exact .inl (by linarith)
      · exact .inr h5
    · rintro (h5 | h5)
      · rw [h5]; ring
      · rw [h5]; ring

/-- **C96 (validity and flags of the train).** A time step is reported as valid exactly when the train did not fail in it and all
stages are inside their charts or valid; a flag of the train is up exactly when it is for one of the stages. The loss is
the sum of the known losses of the stages. -/
theorem C96_valid (factor constant : ℚ) (results : List TrainOne) (n : ℕ) (h : Regular results n) (x : TrainSeries)
    (hx : trainSeries factor constant results = .ok x) (t : ℕ) (r : TrainOne) (hr : results[t]? = some r) :
    x.isValid[t]? = some (decide (r.noFailure = true ∧ ∀ s ∈ r.stages, s.area = some .internal ∨ s.pointValid = true)) ∧
    x.isValid[t]? = some r.isValid ∧
    x.rateExceeds[t]? = some (decide (∃ s ∈ r.stages, s.rateExceeds = some true)) ∧
    x.choked[t]? = some (decide (∃ s ∈ r.stages, s.choked = some true)) ∧
    x.loss[t]? = some ((r.stages.map fun s => (s.loss).getD 0).sum) := by
  obtain ⟨-, hnf, hlen, hs⟩ := report_parts factor constant results n h x hx
  have htl : t < results.length := (List.getElem?_eq_some_iff.1 hr).1
  have hnl : x.noFailure.length = results.length := by rw [hnf, List.length_map]
  have hl : x.stages.length = r.stages.length := by rw [hlen, h.same r (List.mem_of_getElem? hr)]
  have hrep : ∀ {α : Type} (a : α), (List.replicate x.noFailure.length a)[t]? = some a := by
    intro α a
    rw [List.getElem?_replicate, if_pos (by omega)]
  have hand : ∀ (l : List Bool) (b : Bool), l.foldl and b = (b && l.all id) := by
    intro l
    induction l with
    | nil => intro b; simp
    | cons a t ih => intro b; rw [List.foldl_cons, ih, List.all_cons, Bool.and_assoc]; rfl
  have hor : ∀ (l : List Bool) (b : Bool), l.foldl or b = (b || l.any id) := by
    intro l
    induction l with
    | nil => intro b; simp
    | cons a t ih => intro b; rw [List.foldl_cons, ih, List.any_cons, Bool.or_assoc]; rfl
  have hsum : ∀ (l : List ℚ) (b : ℚ), l.foldl (· + ·) b = b + l.sum := by
    intro l
    induction l with
    | nil => intro b; simp
    | cons a t ih => intro b; rw [List.foldl_cons, ih, List.sum_cons, add_assoc]
  have hv : x.isValid[t]? =
      some (decide (r.noFailure = true ∧ ∀ s ∈ r.stages, s.area = some .internal ∨ s.pointValid = true)) := by
    have := foldl_zip and _ _ t (column (·.valid) _ x.stages r.stages hl t
      (fun i s y h1 h2 => (hs t i r s y hr h1 h2).valid)) _ _ (hrep true)
    rw [TrainSeries.isValid, List.getElem?_zipWith, allOf, this, hnf, List.getElem?_map, hr, hand]
    simp [Bool.decide_and]
    rw [Bool.eq_iff_iff]
    simp
  refine ⟨hv, ?_, ?_, ?_, ?_⟩
  · rw [hv, TrainOne.isValid]
    congr 1
    rw [Bool.eq_iff_iff]
    simp [StageOne.within]
  · have := foldl_zip or _ _ t (column (·.rateExceeds) _ x.stages r.stages hl t
      (fun i s y h1 h2 => (hs t i r s y hr h1 h2).rateExceeds)) _ _ (hrep false)
    rw [TrainSeries.rateExceeds, anyOf, this, hor]
    congr 1
    rw [Bool.eq_iff_iff]
    simp
  · have := foldl_zip or _ _ t (column (·.choked) _ x.stages r.stages hl t
      (fun i s y h1 h2 => (hs t i r s y hr h1 h2).choked)) _ _ (hrep false)
    rw [TrainSeries.choked, anyOf, this, hor]
    congr 1
    rw [Bool.eq_iff_iff]
    simp
  · have := foldl_zip (· + ·) _ _ t (column (fun y => y.loss.map fun v => v.getD 0) (fun s => (s.loss).getD 0) x.stages
      r.stages hl t (fun i s y h1 h2 => by
        have e := (hs t i r s y hr h1 h2).loss
        rw [List.getElem?_map, e]
        rcases hc : s.change with _ | c
        · simp [StageOne.loss, Fl.mul, hc]
        · simp only [StageOne.loss, Fl.mul, hc, orZero_eq, Option.bind_some, Option.map_some, Option.getD_some]
          congr 1
          ring)) _ _ (hrep 0)
    rw [TrainSeries.loss, this, hsum, zero_add]

/-- **C96 (standing still).** A time step in which the train was not run is valid, uses no power whatever the adjustment,
loses nothing, has no rates, and no pressures or speed. -/
theorem C96_idle (factor constant : ℚ) (results : List TrainOne) (n : ℕ) (h : Regular results n) (x : TrainSeries)
    (hx : trainSeries factor constant results = .ok x) (t : ℕ) (hr : results[t]? = some (TrainOne.empty n)) :
    x.power[t]? = some (some 0) ∧ x.isValid[t]? = some true ∧ x.loss[t]? = some 0 ∧ x.choked[t]? = some false ∧
    ∀ (i : ℕ) (y : StageSeries), x.stages[i]? = some y →
      y.power[t]? = some (some 0) ∧ y.mass[t]? = some (some 0) ∧ y.inlet.actual[t]? = some (some 0) ∧
      y.outlet.standard[t]? = some (some 0) ∧ y.inlet.pressure[t]? = some none ∧ y.outlet.pressure[t]? = some none ∧
      y.speed[t]? = some none ∧ y.valid[t]? = some true := by
  obtain ⟨hp, -, hlen, hs⟩ := report_parts factor constant results n h x hx
  obtain ⟨v1, -, -, v4, v5⟩ := C96_valid factor constant results n h x hx t _ hr
  have hmem : ∀ s ∈ (TrainOne.empty n).stages, s = StageOne.empty := fun s hs => List.eq_of_mem_replicate hs
  have hl0 : StageOne.empty.loss = some 0 := by
    simp [StageOne.loss, StageOne.empty, orZero, Fl.mul]
  refine ⟨?_, ?_, ?_, ?_, fun i y hy => ?_⟩
  · rw [hp, List.getElem?_map, hr]
    have : (TrainOne.empty n).power = some 0 := by
      have : (TrainOne.empty n).stages.map (·.power) = (List.replicate n (0 : ℚ)).map some := by
        simp [TrainOne.empty, StageOne.empty]
      rw [TrainOne.power, this, flSum_some]
      simp
    rw [Option.map_some, this]
    simp [adjusted]
  · rw [v1]
    congr 1
    rw [decide_eq_true_iff]
    exact ⟨rfl, fun s hs => .inr (by rw [hmem s hs]; rfl)⟩
  · rw [v5]
    have : ((TrainOne.empty n).stages.map fun s => (s.loss).getD 0) = List.replicate n 0 := by
      simp [TrainOne.empty, hl0]
    rw [this]
    simp
  · rw [v4]
    congr 1
    rw [decide_eq_false_iff_not]
    rintro ⟨s, hs, he⟩
    rw [hmem s hs] at he
    cases he
  · have hi : i < n := by rw [← hlen]; exact (List.getElem?_eq_some_iff.1 hy).1
    have hst : (TrainOne.empty n).stages[i]? = some StageOne.empty := by
      simp [TrainOne.empty, hi]
    have := hs t i _ _ y hr hst hy
    exact ⟨this.power, this.mass, this.inlet.actual, this.outlet.standard, this.inlet.pressure, this.outlet.pressure,
      this.speed, by rw [this.valid]; rfl⟩

/-! ## Requested pressures -/

/-- The value of a time series in a period: what it has for the period, NaN when it has nothing or is absent. -/
def ValueIn (series : Pressures) (p : Period) (v : Fl) : Prop :=
  (∃ l, series = some l ∧ (p, v) ∈ l) ∨ (v = none ∧ ∀ l, series = some l → ∀ w, (p, w) ∉ l)

/-- What should be shown as requested from the compressor `name` of the system `sys` in the period `p`, when the setting
with number `j` (from zero) was used then: the pressure of that compressor in that setting. -/
def Requested (suction : Bool) (name : String) (used : List (Period × ℕ)) (sys : Sys) (p : Period) (v : Fl) : Prop :=
  ∃ (j : ℕ) (setting : Setting) (k : ℕ) (series : Pressures), (p, j) ∈ used ∧ sys.settings[j]? = some setting ∧ sys.names[k]? = some name ∧
    (if suction then setting.suction else setting.discharge)[k]? = some series ∧ ValueIn series p v

theorem mapM_forall₂ {α β ε : Type} (g : α → Except ε β) (R : α → β → Prop) (l : List α)
    (h : ∀ a ∈ l, ∃ b, g a = .ok b ∧ R a b) : ∃ r, l.mapM g = .ok r ∧ List.Forall₂ R l r := by
  induction l with
  | nil => exact ⟨[], by rw [List.mapM_nil]; rfl, .nil⟩
  | cons x t ih =>
    obtain ⟨b, hb, hR⟩ := h x (by simp)
    obtain ⟨r, hr, hF⟩ := ih fun a ha => h a (by simp [ha])
    exact ⟨b :: r, by rw [List.mapM_cons, hb, hr]; rfl, .cons hR hF⟩

theorem forall₂_append {α β : Type} {R : α → β → Prop} {a c : List α} {b d : List β} (h1 : List.Forall₂ R a b)
    (h2 : List.Forall₂ R c d) : List.Forall₂ R (a ++ c) (b ++ d) := by
  induction h1 with
  | nil => exact h2
  | cons h _ ih => exact .cons h ih

theorem forall₂_flatten {α β γ : Type} {Q : γ → β → Prop} (f : α → List γ) (l : List α) (rs : List (List β))
    (h : List.Forall₂ (fun a vs => List.Forall₂ Q (f a) vs) l rs) : List.Forall₂ Q (l.flatMap f) rs.flatten := by
  induction h with
  | nil => exact .nil
  | cons h _ ih => exact forall₂_append h ih

theorem filter_name (l : List String) (a : String) : l.filter (· = a) = List.replicate (l.count a) a := by
  induction l with
  | nil => rfl
  | cons b t ih =>
    by_cases h : b = a
    · subst h
      rw [List.filter_cons_of_pos (by simp), ih, List.count_cons_self, List.replicate_succ]
    · rw [List.filter_cons_of_neg (by simpa using h), ih, List.count_cons_of_ne h]

theorem find_value (l : List (Period × Fl)) (p : Period) :
    (∃ v, l.find? (fun x => x.1 = p) = some (p, v) ∧ (p, v) ∈ l) ∨
    (l.find? (fun x => x.1 = p) = none ∧ ∀ w, (p, w) ∉ l) := by
  rcases hf : l.find? (fun x => x.1 = p) with _ | ⟨q, v⟩
  · right
    refine ⟨hf, fun w hw => ?_⟩
    have := List.find?_eq_none.1 hf _ hw
    simp at this
  · left
    have h1 := List.find?_some hf
    have h2 := List.mem_of_find?_eq_some hf
    simp only [decide_eq_true_eq] at h1
    subst h1
    exact ⟨v, hf, h2⟩

/-- **C96 (requested pressures).** For a compressor of a system whose names are distinct, the report shows for every
period of the models that have the compressor, in order, the pressure it has in the operational setting used in that
period. The numbers of the settings used are reported from one. Names are distinct by validation of the file
(yaml_energy_usage_model_consumer_system.py:122-128). -/
theorem C96_requested (suction : Bool) (name : String) (models : List (Period × Sys)) (modelPeriods : List Period)
    (used : List (Period × ℕ)) (inside : Period × Sys → List Period)
    (hin : ∀ m ∈ models, Period.getPeriods m.1 modelPeriods = .ok (inside m))
    (hnames : ∀ m ∈ models, m.2.names.Nodup)
    (hnodup : (used.map (·.1)).Nodup)
    (hused : ∀ m ∈ models, ∀ p ∈ inside m, ∃ j, (p, j) ∈ used ∧ j < m.2.settings.length)
    (hlen : ∀ m ∈ models, ∀ s ∈ m.2.settings,
      s.suction.length = m.2.names.length ∧ s.discharge.length = m.2.names.length) :
    ∃ r, requested suction name models modelPeriods (used.map fun u => (u.1, (u.2 : ℤ) + 1)) = .ok r ∧
      List.Forall₂ (fun mp pv => pv.1 = mp.2 ∧ Requested suction name used mp.1 mp.2 pv.2)
        (models.flatMap fun m => if name ∈ m.2.names then (inside m).map fun p => (m.2, p) else []) r := by
  have hone : ∀ m ∈ models, name ∈ m.2.names → ∀ p ∈ inside m,
      ∃ v, requestedIn suction (used.map fun u => (u.1, (u.2 : ℤ) + 1)) m.2 (m.2.names.idxOf name) p = .ok v ∧
        Requested suction name used m.2 p v := by
    intro m hm hmem p hp
    obtain ⟨j, hj, hjl⟩ := hused m hm p hp
    have hid : usedId (used.map fun u => (u.1, (u.2 : ℤ) + 1)) p = .ok (j : ℤ) := by
      rw [usedId]
      rcases hf : (used.map fun u => (u.1, (u.2 : ℤ) + 1)).find? (fun x => x.1 = p) with _ | ⟨q, i⟩
      · have := List.find?_eq_none.1 hf (p, (j : ℤ) + 1) (List.mem_map.2 ⟨(p, j), hj, rfl⟩)
        simp at this
      · have h1 := List.find?_some hf
        have h2 := List.mem_of_find?_eq_some hf
        simp only [decide_eq_true_eq] at h1
        subst h1
        obtain ⟨⟨q', j'⟩, hu, he⟩ := List.mem_map.1 h2
        simp only [Prod.mk.injEq] at he
        obtain ⟨rfl, rfl⟩ := he
        have : (q', j') = (q', j) := List.inj_on_of_nodup_map hnodup hu hj rfl
        cases this
        rw [hf]
        simp
    have hs := List.getElem?_eq_getElem hjl
    have hget : pyGet m.2.settings (j : ℤ) = .ok (m.2.settings[j]) := by
      simp only [pyGet]
      rw [if_neg (show ¬ (j : ℤ) < 0 by omega), if_neg (show ¬ (j : ℤ) < 0 by omega), Int.toNat_natCast, hs]
    have hk : m.2.names.idxOf name < m.2.names.length := List.idxOf_lt_length_of_mem hmem
    have hkn : m.2.names[m.2.names.idxOf name]? = some name := by
      rw [List.getElem?_eq_getElem hk, List.getElem_idxOf hk]
    have hll : m.2.names.idxOf name <
        (if suction then (m.2.settings[j]).suction else (m.2.settings[j]).discharge).length := by
      obtain ⟨h1, h2⟩ := hlen m hm _ (List.getElem_mem hjl)
      cases suction
      · simpa [h2] using hk
      · simpa [h1] using hk
    have hser := List.getElem?_eq_getElem hll
    set series := (if suction then (m.2.settings[j]).suction else (m.2.settings[j]).discharge)[m.2.names.idxOf name]
      with hdef
    simp only [requestedIn, hid, hget, hser, Bind.bind, Except.bind]
    rcases hcs : series with _ | l
    · exact ⟨none, rfl, j, _, _, series, hj, hs, hkn, hser, .inr ⟨rfl, fun l hl => by rw [hcs] at hl; cases hl⟩⟩
    · rcases find_value l p with ⟨v, hf, hv⟩ | ⟨hf, hno⟩
      · refine ⟨v, by simp only [hf]; rfl, j, _, _, series, hj, hs, hkn, hser, .inl ⟨l, hcs, hv⟩⟩
      · refine ⟨none, by simp only [hf]; rfl, j, _, _, series, hj, hs, hkn, hser, .inr ⟨rfl, fun l' hl => ?_⟩⟩
        rw [hcs] at hl
        cases Option.some.inj hl
        exact hno
  obtain ⟨rs, hrs, hF⟩ := mapM_forall₂ (fun m : Period × Sys => (do
      let inside ← Period.getPeriods m.1 modelPeriods
      let vs ← inside.mapM fun p =>
        (m.2.names.filter (· = name)).mapM fun _ => do
          let v ← requestedIn suction (used.map fun u => (u.1, (u.2 : ℤ) + 1)) m.2 (m.2.names.idxOf name) p
          return (p, v)
      return vs.flatten : Except Err (List (Period × Fl))))
    (fun m vs => List.Forall₂ (fun (mp : Sys × Period) (pv : Period × Fl) =>
        pv.1 = mp.2 ∧ Requested suction name used mp.1 mp.2 pv.2)
      (if name ∈ m.2.names then (inside m).map fun p => (m.2, p) else []) vs) models (by
    intro m hm
    have hfil : m.2.names.filter (· = name) = if name ∈ m.2.names then [name] else [] := by
      rw [filter_name]
      by_cases hmem : name ∈ m.2.names
      · rw [if_pos hmem, List.count_eq_one_of_mem (hnames m hm) hmem]; rfl
      · rw [if_neg hmem, List.count_eq_zero_of_not_mem hmem]; rfl
    simp only [hin m hm, hfil]
    by_cases hmem : name ∈ m.2.names
    · simp only [if_pos hmem]
      obtain ⟨vs, hvs, hV⟩ := mapM_forall₂ (fun p => ([name].mapM fun _ => (do
          let v ← requestedIn suction (used.map fun u => (u.1, (u.2 : ℤ) + 1)) m.2 (m.2.names.idxOf name) p
          return (p, v) : Except Err (Period × Fl))))
        (fun p l => List.Forall₂ (fun (mp : Sys × Period) (pv : Period × Fl) =>
          pv.1 = mp.2 ∧ Requested suction name used mp.1 mp.2 pv.2) [(m.2, p)] l) (inside m) (by
        intro p hp
        obtain ⟨v, hv, hR⟩ := hone m hm hmem p hp
        refine ⟨[(p, v)], ?_, .cons ⟨rfl, hR⟩ .nil⟩
        rw [List.mapM_cons, List.mapM_nil, hv]
        rfl)
      refine ⟨vs.flatten, ?_, ?_⟩
      · simp only [Bind.bind, Except.bind] at hvs ⊢
        rw [hvs]
        rfl
      · have := forall₂_flatten (fun p => [(m.2, p)]) (inside m) vs hV
        rwa [← List.map_eq_flatMap] at this
    · simp only [if_neg hmem]
      have : ∀ l : List Period, ∃ vs : List (List (Period × Fl)),
          l.mapM (fun p => (([] : List String).mapM fun _ => (do
            let v ← requestedIn suction (used.map fun u => (u.1, (u.2 : ℤ) + 1)) m.2 (m.2.names.idxOf name) p
            return (p, v) : Except Err (Period × Fl)))) = .ok vs ∧ vs.flatten = [] := by
        intro l
        induction l with
        | nil => exact ⟨[], by rw [List.mapM_nil]; rfl, rfl⟩
        | cons a t ih =>
          obtain ⟨vs, h1, h2⟩ := ih
          exact ⟨[] :: vs, by rw [List.mapM_cons, List.mapM_nil, h1]; rfl, by simpa using h2⟩
      obtain ⟨vs, h1, h2⟩ := this (inside m)
      refine ⟨[], ?_, .nil⟩
      simp only [Bind.bind, Except.bind] at h1 ⊢
      rw [h1]
      simp only [h2]
      rfl)
  refine ⟨rs.flatten, ?_, forall₂_flatten _ _ _ hF⟩
  simp only [requested, Bind.bind, Except.bind] at hrs ⊢
  rw [hrs]
  rfl

/-! ## Deviations -/

/-- **C96, deviation (adjusted powers).** With an adjustment of the energy usage the reported power of the train is not the
sum of the powers reported for its stages. -/
theorem C96_adjustment_witness :
    ∃ results x, trainSeries (11 / 10) 1 results = .ok x ∧ x.power = [some 12] ∧
      x.stages.map (·.power) = [[some 4], [some 6]] := by
  refine ⟨[⟨none, none, none, [{ StageOne.empty with power := some 4 }, { StageOne.empty with power := some 6 }], true⟩], _,
    rfl, ?_, ?_⟩
  · decide +kernel
  · decide +kernel

/-! ## Examples -/

/-- Two stages with recirculation in the first, and a time step without flow. -/
def exA : List TrainOne :=
  let s1 : Stream := ⟨10, 300, 8, 13 / 10, 9 / 10, 36000, 4500, 50000⟩
  let g1 : Stream := ⟨10, 300, 8, 13 / 10, 9 / 10, 72000, 9000, 100000⟩
  let s2 : Stream := ⟨30, 380, 20, 13 / 10, 9 / 10, 36000, 1800, 50000⟩
  let g2 : Stream := ⟨30, 380, 20, 13 / 10, 9 / 10, 72000, 3600, 100000⟩
  let s3 : Stream := ⟨90, 390, 60, 13 / 10, 9 / 10, 36000, 600, 50000⟩
  [⟨some s1, some s3, some 9000,
     [⟨some s1, some s2, some g1, some g2, some 80, some (4 / 5), some 100, some 100, some 2, some .belowFlow, true,
        some true, some false, none, none⟩,
      ⟨some s2, some s3, some s2, some s3, some 80, some (4 / 5), some 100, some 100, some 1, some .internal, true,
        some false, some false, none, some true⟩], true⟩,
   .empty 2]

/-- The report is made, with power three and half of the first stage's power lost. -/
example : Regular exA 2 :=
  ⟨by simp [exA], by omega, by
    intro r hr
    simp only [exA, List.mem_cons, List.not_mem_nil, or_false] at hr
    rcases hr with rfl | rfl <;> rfl⟩

example : ∃ x, trainSeries 1 0 exA = .ok x ∧ x.power = [some 3, some 0] ∧ x.loss = [1, 0] ∧ x.isValid = [true, true] ∧
    x.inlet.actual = [some 4500, some 0] ∧ x.outlet.pressure = [some 90, none] ∧
    x.stages.map (·.inlet.actual) = [[some 9000, some 0], [some 1800, some 0]] ∧
    x.stages.map (·.headExceeds) = [[false, false], [true, false]] := by
  refine ⟨_, rfl, ?_, ?_, ?_, ?_, ?_, ?_, ?_⟩ <;> decide +kernel

/-- Two settings, the second used in the second period. -/
example : requested false "b"
    [(⟨0, 2⟩, ⟨["a", "b"], [⟨[none, none], [none, some [(⟨0, 1⟩, some 10), (⟨1, 2⟩, some 11)]]⟩,
      ⟨[none, none], [none, some [(⟨0, 1⟩, some 20), (⟨1, 2⟩, some 21)]]⟩]⟩)]
    [⟨0, 1⟩, ⟨1, 2⟩] [(⟨0, 1⟩, 1), (⟨1, 2⟩, 2)] = .ok [(⟨0, 1⟩, some 10), (⟨1, 2⟩, some 21)] := by
  decide +kernel

/-- A time step with fewer stages than another. -/
example : trainSeries 1 0 [.empty 2, .empty 1] = .error .indexError :=
  (C96_no_report 1 0 _).2.1 (.empty 1) (by simp) (.empty 2) (by simp) (by simp [TrainOne.empty])

end Verif.C96
