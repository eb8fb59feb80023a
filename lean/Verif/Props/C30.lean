import Mathlib.Tactic.NormNum
import Verif.Lemmas.Table
import Verif.Model.Genset
import Verif.Props.C20

/-!
# C30: a generator set never reports an overload as valid
-/

namespace Verif.C30
open Verif.Time Verif.Rates Verif.Units Verif.Variables Verif.Table Verif.TableLemmas Verif.Genset Verif.C19 Verif.C20

/-! ## Specification -/

/-- The last of the models whose period covers `q` (for a temporal model, whose periods do not overlap, the only
one). -/
def current {α : Type} : List (Period × α) → Period → Option α
  | [], _ => none
  | (p, a) :: rest, q =>
    match current rest q with
    | some b => some b
    | none => if Covers p q then some a else none

/-- A table with rows of power and fuel, as given by the user. -/
structure Sampled where
  powers : List ℚ
  fuels : List ℚ

/-- The table can deliver the power `p`: some row has at least that power. -/
def Sampled.canDeliver (s : Sampled) (p : ℚ) : Prop := ∃ x ∈ s.powers, p ≤ x

/-- `m` is the generator set model built from the table. -/
def From (s : Sampled) (m : Model) : Prop := Model.make s.powers s.fuels = .ok m

/-! ## Helper lemmas -/

theorem make_facts {s : Sampled} {m : Model} (h : From s m) :
    s.powers.length = s.fuels.length ∧ m.rows = s.powers.zip s.fuels ∧ s.powers ≠ [] ∧
    (m.minFuel ∈ s.fuels ∧ ∀ f ∈ s.fuels, m.minFuel ≤ f) ∧ (m.maxFuel ∈ s.fuels ∧ ∀ f ∈ s.fuels, f ≤ m.maxFuel) ∧
    (m.maxCapacity ∈ s.powers ∧ ∀ p ∈ s.powers, p ≤ m.maxCapacity) := by
  unfold From Model.make at h
  simp only [Bind.bind, Except.bind, Pure.pure, Except.pure] at h
  split at h
  · simp at h
  · rename_i hl
    cases h1 : pyMin s.fuels with
    | error e => simp [h1] at h
    | ok lo =>
      cases h2 : pyMax s.fuels with
      | error e => simp [h1, h2] at h
      | ok hi =>
        cases h3 : pyMax s.powers with
        | error e => simp [h1, h2, h3] at h
        | ok cap =>
          simp only [h1, h2, h3, Except.ok.injEq] at h
          subst h
          have hc := pyMax_spec h3
          exact ⟨not_not.mp hl, rfl, List.ne_nil_of_mem hc.1, pyMin_spec h1, pyMax_spec h2, hc⟩

theorem capacity_iff {s : Sampled} {m : Model} (h : From s m) (p : ℚ) : p ≤ m.maxCapacity ↔ s.canDeliver p := by
  obtain ⟨-, -, -, -, -, h1, h2⟩ := make_facts h
  exact ⟨fun hp => ⟨_, h1, hp⟩, fun ⟨x, hx, hp⟩ => le_trans hp (h2 x hx)⟩

theorem fill_aux (f : Fl → Except Err Fl) (values : List Fl) (n i : Nat) (result out : List Fl)
    (h : (List.range' i n).foldlM (fillStep f values) result = .ok out) :
    out.length = result.length ∧ ∀ k : Nat,
      ((i ≤ k ∧ k < i + n) → ∃ v x, values[k]? = some v ∧ f v = .ok x ∧ out[k]? = some x) ∧
      (¬ (i ≤ k ∧ k < i + n) → out[k]? = result[k]?) := by
  induction n generalizing i result with
  | zero =>
    simp [Pure.pure, Except.pure] at h
    subst h
    exact ⟨rfl, fun k => ⟨fun hk => by omega, fun _ => rfl⟩⟩
  | succ n ih =>
    rw [List.range'_succ, List.foldlM_cons] at h
    cases hv : values[i]? with
    | none => simp [fillStep, hv, Bind.bind, Except.bind] at h
    | some v =>
      cases hx : f v with
      | error e => simp [fillStep, hv, hx, Bind.bind, Except.bind] at h
      | ok x =>
        simp only [fillStep, hv, hx, Bind.bind, Except.bind, Pure.pure, Except.pure] at h
        by_cases hlt : i < result.length
        · rw [if_pos hlt] at h
          obtain ⟨g1, g2⟩ := ih (i + 1) (result.set i x) h
          refine ⟨by simpa using g1, fun k => ?_⟩
          obtain ⟨k1, k2⟩ := g2 k
          constructor
          · intro hk
            by_cases hki : k = i
            · subst hki
              refine ⟨v, x, hv, hx, ?_⟩
              rw [k2 (by omega)]
              simp [hlt]
            · exact k1 (by omega)
          · intro hk
            rw [k2 (by omega)]
            rw [List.getElem?_set_ne (by omega)]
        · rw [if_neg hlt] at h
          simp at h

theorem fill_ok (f : Fl → Except Err Fl) (hf : ∀ v, ∃ x, f v = .ok x) (values : List Fl) (n i : Nat)
    (result : List Fl) (h1 : i + n ≤ values.length) (h2 : values.length = result.length) :
    ∃ out, (List.range' i n).foldlM (fillStep f values) result = .ok (ε := Err) out := by
  induction n generalizing i result with
  | zero => exact ⟨result, rfl⟩
  | succ n ih =>
    rw [List.range'_succ, List.foldlM_cons]
    obtain ⟨x, hx⟩ := hf (values[i]'(by omega))
    have hv : values[i]? = some (values[i]'(by omega)) := List.getElem?_eq_getElem (by omega)
    simp only [fillStep, hv, hx, Bind.bind, Except.bind, Pure.pure, Except.pure]
    rw [if_pos (by omega)]
    exact ih (i + 1) (result.set i x) (by omega) (by simpa using h2)

theorem over_spec (f : Model → Fl → Except Err Fl) {ev : VarMap} (hb : Built ev) (models : TModel Model)
    (hp : ∀ pm ∈ models, pm.1.start < pm.1.stop) (values : List Fl) (init out : List Fl)
    (h : overModels f ev models values init = .ok out) :
    out.length = init.length ∧ ∀ (k : Nat) (hk : k < ev.periods.length),
      match current models ev.periods[k] with
      | some m => ∃ v x, values[k]? = some v ∧ f m v = .ok x ∧ out[k]? = some x
      | none => out[k]? = init[k]? := by
  unfold overModels at h
  induction models generalizing init with
  | nil =>
    simp [Pure.pure, Except.pure] at h
    subst h
    exact ⟨rfl, fun k hk => rfl⟩
  | cons pm rest ih =>
    obtain ⟨p, m⟩ := pm
    rw [List.foldlM_cons] at h
    obtain ⟨own, hown⟩ : ∃ own, ev.period = .ok own := by
      obtain ⟨_, _, h⟩ := built_period hb
      exact ⟨_, h⟩
    have hpp := hp (p, m) (by simp)
    rw [overStep] at h
    simp only [hown, Bind.bind, Except.bind] at h
    have step : ∃ mid, mid.length = init.length ∧
        (∀ (k : Nat) (hk : k < ev.periods.length),
          (Covers p ev.periods[k] → ∃ v x, values[k]? = some v ∧ f m v = .ok x ∧ mid[k]? = some x) ∧
          (¬ Covers p ev.periods[k] → mid[k]? = init[k]?)) ∧
        rest.foldlM (overStep f ev values) mid = .ok out := by
      by_cases hi : Period.intersects p own = true
      · simp only [hi, if_true] at h
        by_cases ha : Aligned ev own p
        · obtain ⟨i, j, h1, h2, h3, h4⟩ := (indices_ok hb hown hpp hi).1 ha
          simp only [h1] at h
          cases hr : fillRange (f m) values init i j with
          | error e => rw [hr] at h; simp at h
          | ok mid =>
            rw [hr] at h
            obtain ⟨g1, g2⟩ := fill_aux (f m) values (j - i) i init mid hr
            refine ⟨mid, g1, fun k hk => ?_, h⟩
            rw [h4 k hk]
            have := g2 k
            rw [show i + (j - i) = j by omega] at this
            exact this
        · have := (indices_ok hb hown hpp hi).2 ha
          simp [this] at h
      · have hi' : Period.intersects p own = false := by simpa using hi
        simp only [hi', Bool.false_eq_true, if_false, Pure.pure, Except.pure] at h
        exact ⟨init, rfl, fun k hk => ⟨fun hc => absurd hc (not_covered hb hown hi' k hk), fun _ => rfl⟩, h⟩
    obtain ⟨mid, hm1, hm2, hm3⟩ := step
    obtain ⟨g1, g2⟩ := ih (fun pm h => hp pm (by simp [h])) mid hm3
    refine ⟨by rw [g1, hm1], fun k hk => ?_⟩
    have := g2 k hk
    rw [current]
    cases hc : current rest ev.periods[k] with
    | some m' => rw [hc] at this; exact this
    | none =>
      rw [hc] at this
      simp only at this ⊢
      by_cases hcov : Covers p ev.periods[k]
      · simp only [hcov, if_true]
        rw [this]; exact (hm2 k hk).1 hcov
      · simp only [hcov, if_false]
        rw [this]; exact (hm2 k hk).2 hcov

theorem over_ok (f : Model → Fl → Except Err Fl) {ev : VarMap} (hb : Built ev) {own : Period}
    (hown : ev.period = .ok own) (models : TModel Model)
    (hf : ∀ pm ∈ models, ∀ v, ∃ x, f pm.2 v = .ok x) (hp : ∀ pm ∈ models, pm.1.start < pm.1.stop)
    (ha : ∀ pm ∈ models, Period.intersects pm.1 own = true → Aligned ev own pm.1) (values : List Fl)
    (init : List Fl) (hv : values.length = ev.periods.length) (hn : init.length = ev.periods.length) :
    ∃ out, overModels f ev models values init = .ok out := by
  unfold overModels
  induction models generalizing init with
  | nil => exact ⟨init, rfl⟩
  | cons pm rest ih =>
    obtain ⟨p, m⟩ := pm
    rw [List.foldlM_cons, overStep]
    simp only [hown, Bind.bind, Except.bind]
    have ih' := fun init hn => ih (fun pm h => hf pm (by simp [h])) (fun pm h => hp pm (by simp [h]))
      (fun pm h => ha pm (by simp [h])) init hn
    by_cases hi : Period.intersects p own = true
    · obtain ⟨i, j, h1, h2, h3, -⟩ := (indices_ok hb hown (hp (p, m) (by simp)) hi).1 (ha (p, m) (by simp) hi)
      obtain ⟨mid, hmid⟩ := fill_ok (f m) (hf (p, m) (by simp)) values (j - i) i init (by omega) (by omega)
      have hr : fillRange (f m) values init i j = .ok mid := hmid
      have hl := (fill_aux (f m) values (j - i) i init mid hmid).1
      simp only [hi, if_true, h1, hr]
      exact ih' mid (by rw [hl, hn])
    · have hi' : Period.intersects p own = false := by simpa using hi
      simp only [hi', Bool.false_eq_true, if_false, Pure.pure, Except.pure]
      exact ih' init hn

theorem fuel_spec {s : Sampled} {m : Model} (h : From s m) (v : Fl) :
    ∃ x, m.fuelUsage v = .ok (some x) ∧
      ((∀ p, v = some p → p ≤ 0) → x = 0) ∧
      (∀ p, v = some p → 0 < p → (∃ f ∈ s.fuels, f ≤ x) ∧ (∃ f ∈ s.fuels, x ≤ f) ∧
        (s.canDeliver p → (∃ q ∈ s.powers, q ≤ p) → Between (s.powers.zip s.fuels) p x)) := by
  obtain ⟨hlen, hrows, hne, hmin, hmax, hcap⟩ := make_facts h
  cases v with
  | none => exact ⟨0, rfl, fun _ => rfl, fun p hp => by simp at hp⟩
  | some p =>
    unfold Model.fuelUsage
    by_cases hp : 0 < p
    · simp only [hp, if_true]
      have hz : s.powers.zip s.fuels ≠ [] := by
        apply List.ne_nil_of_length_pos
        have := List.length_pos_of_ne_nil hne
        simp; omega
      obtain ⟨y, h1, h2⟩ := lookup_spec m.rows m.minFuel m.maxFuel p (by rw [hrows]; exact hz)
      rw [h1]
      refine ⟨y, rfl, fun hneg => absurd (hneg p rfl) (not_le.mpr hp), ?_⟩
      rintro q hq -
      obtain rfl := Option.some.inj hq
      have hfst : ∀ l ∈ s.powers, ∃ r ∈ m.rows, r.1 = l := by
        intro l hl
        obtain ⟨i, hi, rfl⟩ := List.mem_iff_getElem.mp hl
        rw [hrows]
        exact ⟨(s.powers.zip s.fuels)[i]'(by simp; omega), List.getElem_mem _, by simp⟩
      have hbd : m.minFuel ≤ y ∧ y ≤ m.maxFuel := by
        rcases h2 with ⟨-, rfl⟩ | ⟨-, rfl⟩ | ⟨-, -, g⟩
        · exact ⟨le_refl _, hmin.2 _ hmax.1⟩
        · exact ⟨hmax.2 _ hmin.1, le_refl _⟩
        · refine between_bounds g (fun r hr => ?_)
          rw [hrows] at hr
          exact ⟨hmin.2 _ (List.of_mem_zip hr).2, hmax.2 _ (List.of_mem_zip hr).2⟩
      refine ⟨⟨_, hmin.1, hbd.1⟩, ⟨_, hmax.1, hbd.2⟩, ?_⟩
      rintro ⟨a, ha, hpa⟩ ⟨b, hb, hbp⟩
      obtain ⟨ra, hra, rfl⟩ := hfst a ha
      obtain ⟨rb, hrb, rfl⟩ := hfst b hb
      rcases h2 with ⟨g, -⟩ | ⟨g, -⟩ | ⟨-, -, g⟩
      · exact absurd (g rb hrb) (not_lt.mpr hbp)
      · exact absurd (g ra hra) (not_lt.mpr hpa)
      · rwa [hrows] at g
    · simp only [hp, if_false]
      exact ⟨0, rfl, fun _ => rfl, fun q hq hq' => by
        obtain rfl := Option.some.inj hq; exact absurd hq' hp⟩

theorem forwardFill_length (prev : Fl) (vs : List Fl) : (forwardFill prev vs).length = vs.length := by
  induction vs generalizing prev with
  | nil => rfl
  | cons v vs ih => simp [forwardFill, ih]

theorem forwardFill_some (prev : Fl) (vs : List Fl) (k : Nat) (x : ℚ) (h : vs[k]? = some (some x)) :
    (forwardFill prev vs)[k]? = some (some x) := by
  induction vs generalizing prev k with
  | nil => simp at h
  | cons v vs ih =>
    cases k with
    | zero => simp at h; subst h; simp [forwardFill]
    | succ k => simp at h; simp only [forwardFill, List.getElem?_cons_succ]; exact ih _ k h

/-- What `evaluate` returns. -/
theorem evaluate_facts {ev : VarMap} (hb : Built ev) {models : TModel Model}
    (hp : ∀ pm ∈ models, pm.1.start < pm.1.stop) {req : TS Fl} {r : Result}
    (h : evaluate ev models (some req) = .ok r) :
    req.values.length = ev.periods.length ∧ r.power = req.values ∧ ∃ fuel,
      r.valid.length = ev.periods.length ∧ r.margin.length = ev.periods.length ∧ fuel.length = ev.periods.length ∧
      r.fuel = cleanNan fuel ∧ ∀ (k : Nat) (hk : k < ev.periods.length),
        match current models ev.periods[k] with
        | some m => ∃ v f, req.values[k]? = some v ∧ m.fuelUsage v = .ok f ∧ fuel[k]? = some f ∧
            r.margin[k]? = some (v.map (fun p => m.maxCapacity - p)) ∧
            r.valid[k]? = some (f.isSome && nonNegative (v.map (fun p => m.maxCapacity - p)))
        | none => fuel[k]? = some none ∧ r.margin[k]? = some (some 0) ∧ r.valid[k]? = some false := by
  unfold evaluate at h
  simp only at h
  split at h
  · simp at h
  · split at h
    · simp at h
    · rename_i hlen
      have hlen := not_not.mp hlen
      cases h1 : overModels Model.fuelUsage ev models req.values (List.replicate req.values.length none) with
      | error e => simp [h1, Bind.bind, Except.bind] at h
      | ok fuel =>
        cases h2 : overModels Model.margin ev models req.values (List.replicate req.values.length (some 0)) with
        | error e => simp [h1, h2, Bind.bind, Except.bind] at h
        | ok margin =>
          simp only [h1, h2, Bind.bind, Except.bind, Pure.pure, Except.pure, Except.ok.injEq] at h
          subst h
          obtain ⟨f1, f2⟩ := over_spec _ hb models hp _ _ _ h1
          obtain ⟨m1, m2⟩ := over_spec _ hb models hp _ _ _ h2
          simp only [List.length_replicate] at f1 m1
          refine ⟨hlen, rfl, fuel, by simp; omega, by simp; omega, by omega, rfl, fun k hk => ?_⟩
          have a := f2 k hk
          have b := m2 k hk
          cases hc : current models ev.periods[k] with
          | none =>
            rw [hc] at a b
            simp only at a b
            rw [List.getElem?_replicate, if_pos (by omega)] at a b
            refine ⟨a, b, ?_⟩
            rw [List.getElem?_zipWith, a, b]
            rfl
          | some m =>
            rw [hc] at a b
            obtain ⟨v, f, a1, a2, a3⟩ := a
            obtain ⟨v', g, b1, b2, b3⟩ := b
            rw [a1] at b1
            obtain rfl := Option.some.inj b1
            simp only [Model.margin, Except.ok.injEq] at b2
            subst b2
            refine ⟨v, f, a1, a2, a3, b3, ?_⟩
            rw [List.getElem?_zipWith, a3, b3]

theorem current_mem {α : Type} {models : List (Period × α)} {q : Period} {a : α} (h : current models q = some a) :
    ∃ p, (p, a) ∈ models ∧ Covers p q := by
  induction models with
  | nil => simp [current] at h
  | cons pm rest ih =>
    obtain ⟨p, b⟩ := pm
    rw [current] at h
    split at h
    · rename_i b' hb'
      obtain rfl := Option.some.inj h
      obtain ⟨p', h1, h2⟩ := ih hb'
      exact ⟨p', by simp [h1], h2⟩
    · split at h
      · rename_i hc
        obtain rfl := Option.some.inj h
        exact ⟨p, by simp, hc⟩
      · simp at h

/-! ## Theorems -/

/-- A period is reported valid exactly when a generator set is in force in it, the power requirement is a number, and
the table of that generator set has a row with at least that power. -/
theorem C30_valid_iff (ev : VarMap) (hb : Built ev) (tables : Model → Sampled) (models : TModel Model)
    (hp : ∀ pm ∈ models, pm.1.start < pm.1.stop) (ht : ∀ pm ∈ models, From (tables pm.2) pm.2) (req : TS Fl)
    (r : Result) (h : evaluate ev models (some req) = .ok r) (k : Nat) (hk : k < ev.periods.length) :
    r.valid[k]? = some true ↔ ∃ m p, current models ev.periods[k] = some m ∧ req.values[k]? = some (some p) ∧
      (tables m).canDeliver p := by
  obtain ⟨-, -, fuel, -, -, -, -, hall⟩ := evaluate_facts hb hp h
  have := hall k hk
  cases hc : current models ev.periods[k] with
  | none =>
    rw [hc] at this
    simp only at this
    rw [this.2.2]
    simp
  | some m =>
    rw [hc] at this
    obtain ⟨v, f, h1, h2, -, -, h5⟩ := this
    obtain ⟨p, hpm, -⟩ := current_mem hc
    have hfrom := ht _ hpm
    obtain ⟨x, hx, -⟩ := fuel_spec hfrom v
    rw [hx] at h2
    obtain rfl := Except.ok.inj h2
    rw [h5, h1]
    simp only [Option.some.injEq, Option.isSome_some, Bool.true_and]
    cases v with
    | none => simp [nonNegative]
    | some p =>
      simp only [Option.map_some, nonNegative, decide_eq_true_eq, Option.some.injEq]
      rw [sub_nonneg, capacity_iff hfrom]
      exact ⟨fun hd => ⟨m, p, rfl, rfl, hd⟩, by rintro ⟨m', p', rfl, rfl, hd⟩; exact hd⟩

/-- The margin reported is the largest power of the table in force minus the power. -/
theorem C30_margin (ev : VarMap) (hb : Built ev) (tables : Model → Sampled) (models : TModel Model)
    (hp : ∀ pm ∈ models, pm.1.start < pm.1.stop) (ht : ∀ pm ∈ models, From (tables pm.2) pm.2) (req : TS Fl)
    (r : Result) (h : evaluate ev models (some req) = .ok r) (k : Nat) (hk : k < ev.periods.length) (m : Model)
    (p : ℚ) (hm : current models ev.periods[k] = some m) (hv : req.values[k]? = some (some p)) :
    ∃ cap ∈ (tables m).powers, (∀ x ∈ (tables m).powers, x ≤ cap) ∧ r.margin[k]? = some (some (cap - p)) := by
  obtain ⟨-, -, fuel, -, -, -, -, hall⟩ := evaluate_facts hb hp h
  have := hall k hk
  rw [hm] at this
  obtain ⟨v, f, h1, -, -, h4, -⟩ := this
  rw [hv] at h1
  obtain rfl := Option.some.inj h1
  obtain ⟨q, hpm, -⟩ := current_mem hm
  obtain ⟨-, -, -, -, -, c1, c2⟩ := make_facts (ht _ hpm)
  exact ⟨m.maxCapacity, c1, c2, h4⟩

/-- Fuel in a period with a generator set in force: zero without power; for a positive power between the smallest and
the largest fuel of the table, and on the table when the power is inside it. -/
theorem C30_fuel (ev : VarMap) (hb : Built ev) (tables : Model → Sampled) (models : TModel Model)
    (hp : ∀ pm ∈ models, pm.1.start < pm.1.stop) (ht : ∀ pm ∈ models, From (tables pm.2) pm.2) (req : TS Fl)
    (r : Result) (h : evaluate ev models (some req) = .ok r) (k : Nat) (hk : k < ev.periods.length) (m : Model)
    (hm : current models ev.periods[k] = some m) :
    ∃ x, r.fuel[k]? = some (some x) ∧
      (∀ p, req.values[k]? = some (some p) → p ≤ 0 → x = 0) ∧
      (∀ p, req.values[k]? = some (some p) → 0 < p →
        (∃ f ∈ (tables m).fuels, f ≤ x) ∧ (∃ f ∈ (tables m).fuels, x ≤ f) ∧
        ((tables m).canDeliver p → (∃ q ∈ (tables m).powers, q ≤ p) →
          Between ((tables m).powers.zip (tables m).fuels) p x)) := by
  obtain ⟨-, -, fuel, -, -, -, hcl, hall⟩ := evaluate_facts hb hp h
  have := hall k hk
  rw [hm] at this
  obtain ⟨v, f, h1, h2, h3, -, -⟩ := this
  obtain ⟨q, hpm, -⟩ := current_mem hm
  obtain ⟨x, hx, g1, g2⟩ := fuel_spec (ht _ hpm) v
  rw [hx] at h2
  obtain rfl := Except.ok.inj h2
  refine ⟨x, ?_, ?_, ?_⟩
  · rw [hcl]
    unfold cleanNan
    rw [List.getElem?_map, forwardFill_some none fuel k x h3]
    rfl
  · intro p hv hle
    rw [h1] at hv
    obtain rfl := Option.some.inj hv
    exact g1 (fun p' hp' => by obtain rfl := Option.some.inj hp'; exact hle)
  · intro p hv hlt
    rw [h1] at hv
    obtain rfl := Option.some.inj hv
    exact g2 p rfl hlt

theorem forwardFill_gap (prev : Fl) (vs : List Fl) (k : Nat) (h : vs[k + 1]? = some none) :
    (forwardFill prev vs)[k + 1]? = (forwardFill prev vs)[k]? := by
  induction vs generalizing prev k with
  | nil => simp at h
  | cons v vs ih =>
    simp only [forwardFill, List.getElem?_cons_succ] at h ⊢
    cases k with
    | zero =>
      cases vs with
      | nil => simp at h
      | cons w vs => simp at h; subst h; simp [forwardFill]
    | succ k => rw [List.getElem?_cons_succ]; exact ih _ k h

/-- Fuel in a period without a generator set in force: that of the period before, zero in the first period. -/
theorem C30_gap (ev : VarMap) (hb : Built ev) (models : TModel Model) (hp : ∀ pm ∈ models, pm.1.start < pm.1.stop)
    (req : TS Fl) (r : Result) (h : evaluate ev models (some req) = .ok r) (k : Nat) (hk : k < ev.periods.length)
    (hm : current models ev.periods[k] = none) :
    (k = 0 → r.fuel[k]? = some (some 0)) ∧ (0 < k → r.fuel[k]? = r.fuel[k - 1]?) := by
  obtain ⟨-, -, fuel, -, -, -, hcl, hall⟩ := evaluate_facts hb hp h
  have := hall k hk
  rw [hm] at this
  have hf : fuel[k]? = some none := this.1
  rw [hcl]
  unfold cleanNan
  constructor
  · rintro rfl
    cases fuel with
    | nil => simp at hf
    | cons v vs => simp at hf; subst hf; simp [forwardFill, nanToNum]
  · intro h0
    obtain ⟨j, rfl⟩ : ∃ j, k = j + 1 := ⟨k - 1, by omega⟩
    rw [List.getElem?_map, List.getElem?_map, forwardFill_gap none fuel j hf]
    rfl

/-- The reported fuel has a number for every period. -/
theorem C30_no_missing (ev : VarMap) (hb : Built ev) (models : TModel Model)
    (hp : ∀ pm ∈ models, pm.1.start < pm.1.stop) (req : TS Fl) (r : Result)
    (h : evaluate ev models (some req) = .ok r) :
    r.fuel.length = ev.periods.length ∧ r.valid.length = ev.periods.length ∧
      r.margin.length = ev.periods.length ∧ r.power = req.values ∧ ∀ x ∈ r.fuel, x ≠ none := by
  obtain ⟨-, hpw, fuel, h1, h2, h3, hcl, -⟩ := evaluate_facts hb hp h
  refine ⟨by rw [hcl]; simp [cleanNan, forwardFill_length, h3], h1, h2, hpw, ?_⟩
  rw [hcl]
  intro x hx
  unfold cleanNan at hx
  obtain ⟨y, -, rfl⟩ := List.mem_map.mp hx
  simp [nanToNum]

/-- Evaluation succeeds when the requirement is in megawatt for the periods of the model and the generator set changes
on dates of the model. -/
theorem C30_evaluates (ev : VarMap) (hb : Built ev) (tables : Model → Sampled) (models : TModel Model)
    (own : Period) (ho : ev.period = .ok own) (hp : ∀ pm ∈ models, pm.1.start < pm.1.stop)
    (ht : ∀ pm ∈ models, From (tables pm.2) pm.2)
    (ha : ∀ pm ∈ models, Period.intersects pm.1 own = true → Aligned ev own pm.1) (req : TS Fl)
    (hu : req.unit = .MEGA_WATT) (hl : req.values.length = ev.periods.length) :
    ∃ r, evaluate ev models (some req) = .ok r := by
  obtain ⟨fuel, h1⟩ := over_ok Model.fuelUsage hb ho models
    (fun pm hpm v => by obtain ⟨x, hx, -⟩ := fuel_spec (ht pm hpm) v; exact ⟨_, hx⟩) hp ha req.values
    (List.replicate req.values.length none) hl (by simpa using hl)
  obtain ⟨margin, h2⟩ := over_ok Model.margin hb ho models (fun pm hpm v => ⟨_, rfl⟩) hp ha req.values
    (List.replicate req.values.length (some 0)) hl (by simpa using hl)
  unfold evaluate
  simp only [hu, hl, ne_eq, not_true, if_false]
  rw [hl] at h1 h2
  simp only [h1, h2, Bind.bind, Except.bind, Pure.pure, Except.pure]
  exact ⟨_, rfl⟩

/-- Two generator sets in time, a requirement above the capacity of the second, and a gap between them. -/
def sampleEv : VarMap := ⟨[⟨0, 10⟩, ⟨10, 20⟩, ⟨20, 30⟩], [0, 10, 20, 30], []⟩
def sampleA : Model := ⟨[(0, 2), (10, 6)], 2, 6, 10⟩
def sampleB : Model := ⟨[(0, 1), (5, 4)], 1, 4, 5⟩
def sampleModels : TModel Model := [(⟨0, 10⟩, sampleA), (⟨20, 40⟩, sampleB)]

example : From ⟨[0, 10], [2, 6]⟩ sampleA ∧ From ⟨[0, 5], [1, 4]⟩ sampleB := by
  constructor <;> exact rfl

example : (evaluate sampleEv sampleModels (some ⟨sampleEv.periods, [some 5, some 5, some 6], .MEGA_WATT⟩)).map
    (fun r => (r.valid, r.margin, r.fuel))
    = .ok ([true, false, false], [some 5, some 0, some (-1)], [some 4, some 4, some 4]) := by decide +kernel

example : (evaluate sampleEv [(⟨10, 20⟩, sampleA)] (some ⟨sampleEv.periods, [some 5, some 5, some 5], .MEGA_WATT⟩)).map
    (fun r => (r.valid, r.fuel)) = .ok ([false, true, false], [some 0, some 4, some 4]) := by decide +kernel

/-- In a period where no generator set is in force the result is not valid, but the fuel of the last period with a
generator set is reported again. -/
theorem C30_stale_fuel :
    ∃ r, evaluate sampleEv [(⟨0, 10⟩, sampleA)] (some ⟨sampleEv.periods, [some 5, some 0, some 0], .MEGA_WATT⟩) = .ok r ∧
      current [(⟨0, 10⟩, sampleA)] ⟨10, 20⟩ = none ∧ r.valid = [true, false, false] ∧
      r.power = [some 5, some 0, some 0] ∧ r.fuel = [some 4, some 4, some 4] := by
  refine ⟨⟨[true, false, false], [some 5, some 0, some 0], [some 5, some 0, some 0], [some 4, some 4, some 4]⟩,
    ?_, by decide +kernel, rfl, rfl, rfl⟩
  decide +kernel

/-- The constructor accepts a fuel only if its definitions span the whole period of the generator set. -/
theorem C30_fuel_defined {α : Type} (models : TModel Model) (fuel : TModel α) (h : fuelCovers models fuel = .ok ())
    (g f : Period) (hg : models.getPeriod = .ok g) (hf : fuel.getPeriod = .ok f) :
    f.start ≤ g.start ∧ g.stop ≤ f.stop := by
  unfold fuelCovers at h
  simp only [hg, hf, Bind.bind, Except.bind, Pure.pure, Except.pure] at h
  split at h
  · rename_i hc
    simp [Period.containsPeriod] at hc
    omega
  · simp at h

example : fuelCovers sampleModels [((⟨0, 50⟩ : Period), ())] = .ok () ∧
    fuelCovers sampleModels [((⟨0, 30⟩ : Period), ())] = .error .validation := by
  constructor <;> decide +kernel

/-- Power production covers the requirement and the cable loss: `production - loss * power = power`, so it is never
below the requirement for non-negative power and loss. -/
theorem C30_production (power loss : List ℚ) (hl : power.length = loss.length) :
    ∃ out : List ℚ, powerProduction (power.map some) (some (loss.map some)) = .ok (out.map some) ∧
      out.length = power.length ∧ ∀ (k : Nat) (h1 : k < power.length) (h2 : k < loss.length) (h3 : k < out.length),
        out[k] - loss[k] * power[k] = power[k] ∧ (0 ≤ power[k] → 0 ≤ loss[k] → power[k] ≤ out[k]) := by
  refine ⟨List.zipWith (fun p l => p * (1 + l)) power loss, ?_, by simp [hl], ?_⟩
  · unfold powerProduction
    simp only
    rw [npOp_same _ _ _ (by simp [hl])]
    rw [List.zipWith_map]
    congr 1
    rw [List.map_zipWith]
    rfl
  · intro k h1 h2 h3
    simp only [List.getElem_zipWith]
    refine ⟨by ring, fun hp hq => ?_⟩
    nlinarith [mul_nonneg hp hq]

example : powerProduction [some 10, some 20] (some [some (1/10), some 0]) = .ok [some 11, some 20] := by
  decide +kernel

end Verif.C30
