import Mathlib.Tactic.Ring
import Verif.Model.Fuel
import Verif.Props.C26
import Verif.Props.C30

/-!
# C31: fuel emissions are fuel rate times factor, for the fuel in force
-/

namespace Verif.C31
open Verif.Time Verif.Rates Verif.Units Verif.Expression Verif.Variables Verif.Inputs Verif.Fuel Verif.C19 Verif.C20
open Verif.C30 (current)

/-! ## Specification -/

/-- `z` is the emission in tonnes when `r` of fuel is burnt at `x` kilos of emission per unit of fuel. -/
def Emitted (r : ℚ) (x z : Fl) : Prop :=
  match x with
  | none => z = none
  | some f => ∃ t, z = some t ∧ 1000 * t = r * f

/-- `z` is the emission `name` in period `k`, with fuel rate `r`, when `fuel` is in force: zero without fuel and for
an emission the fuel does not list. -/
def Expected (pow : Fl → Fl → Fl) (vars : Vars) (k : Nat) (r : ℚ) (fuel : Option FuelType) (name : String)
    (z : Fl) : Prop :=
  match fuel with
  | none => z = some 0
  | some es =>
    match es.lookup name with
    | none => z = some 0
    | some e => ∃ x, Means pow (valueIn vars k) e.tree x ∧ Emitted r x z

/-- A usable set of fuels: periods that do not overlap, starting and ending on dates of the model, and for each fuel
different emissions with usable factors. -/
structure Fuels (ev : VarMap) (own : Period) (models : TModel FuelType) : Prop where
  proper : ∀ pm ∈ models, pm.1.start < pm.1.stop
  disjoint : models.Pairwise (fun a b => a.1.stop ≤ b.1.start ∨ b.1.stop ≤ a.1.start)
  aligned : ∀ pm ∈ models, Period.intersects pm.1 own = true → Aligned ev own pm.1
  names : ∀ pm ∈ models, (pm.2.map (·.1)).Nodup
  usable : ∀ pm ∈ models, ∀ ne ∈ pm.2, Usable ev.vars ev.periods.length ne.2

/-! ## Helper lemmas -/

theorem add_zero (t : Fl) : Fl.add (some 0) t = t := by cases t <;> simp [Fl.add]

theorem addAt_aux (start : Nat) (tons : List Fl) (n : Nat) (values : List Fl)
    (hlen : start + n + tons.length ≤ values.length)
    (hz : ∀ k, start + n ≤ k → k < start + n + tons.length → values[k]? = some (some 0)) :
    ∃ out, (tons.zipIdx n).foldlM (addStep start) values = .ok out ∧ out.length = values.length ∧
      ∀ k, out[k]? = if start + n ≤ k ∧ k < start + n + tons.length then tons[k - (start + n)]? else values[k]? := by
  induction tons generalizing n values with
  | nil => exact ⟨values, rfl, rfl, fun k => by rw [if_neg (by simp)]⟩
  | cons t tons ih =>
    rw [List.zipIdx_cons, List.foldlM_cons]
    have h0 := hz (start + n) (by omega) (by simp)
    have hs : addStep start values (t, n) = .ok (values.set (start + n) t) := by
      unfold addStep
      simp only [Nat.add_comm n start, h0, if_true, add_zero]
    simp only [hs, Bind.bind, Except.bind]
    simp only [List.length_cons] at hlen hz
    obtain ⟨out, h1, h2, h3⟩ := ih (n + 1) (values.set (start + n) t) (by simp; omega) (by
      intro k hk1 hk2
      rw [List.getElem?_set_ne (by omega)]
      exact hz k (by omega) (by omega))
    refine ⟨out, h1, by simpa using h2, fun k => ?_⟩
    rw [h3 k]
    simp only [List.length_cons]
    by_cases hk : k = start + n
    · subst hk
      rw [if_neg (by omega), if_pos (by omega), List.getElem?_set_self (by omega)]
      simp
    · by_cases hin : start + n < k ∧ k < start + n + (tons.length + 1)
      · rw [if_pos (by omega), if_pos (by omega)]
        obtain ⟨d, hd⟩ : ∃ d, k - (start + n) = d + 1 := ⟨k - (start + n) - 1, by omega⟩
        rw [hd, List.getElem?_cons_succ]
        congr 1; omega
      · rw [if_neg (by omega), if_neg (by omega)]
        rw [List.getElem?_set_ne (by omega)]

theorem addAt_ok (start : Nat) (tons values : List Fl) (hlen : start + tons.length ≤ values.length)
    (hz : ∀ k, start ≤ k → k < start + tons.length → values[k]? = some (some 0)) :
    ∃ out, addAt start tons values = .ok out ∧ out.length = values.length ∧
      ∀ k, out[k]? = if start ≤ k ∧ k < start + tons.length then tons[k - start]? else values[k]? := by
  obtain ⟨out, h1, h2, h3⟩ := addAt_aux start tons 0 values (by simpa using hlen) (by simpa using hz)
  exact ⟨out, h1, h2, by simpa using h3⟩

theorem tonnes_spec (r : ℚ) (x : Fl) (f : ℚ → ℚ) (hf : ∀ a : ℚ, 1000 * f a = a) :
    Emitted r x ((Fl.mul (some r) x).map f) := by
  cases x with
  | none => simp [Emitted, Fl.mul]
  | some y => exact ⟨f (r * y), rfl, hf _⟩

/-- One emission of a fuel. -/
theorem emission_ok (pow : Fl → Fl → Fl) {ev : VarMap} (hb : Built ev) (rate : List ℚ)
    (hrate : rate.length = ev.periods.length) (i j : Nat) (hij : i < j) (hj : j ≤ ev.periods.length)
    (sub : VarMap) (hsub : ev.getSubset i j = .ok sub) (n : String) (e : Expr)
    (hu : Usable ev.vars ev.periods.length e) (acc : List (String × List Fl)) (vs : List Fl)
    (hl : acc.lookup n = some vs) (hvs : vs.length = ev.periods.length)
    (hz : ∀ k, i ≤ k → k < j → vs[k]? = some (some 0)) :
    ∃ vs', emissionStep pow sub (Periods.slice (rate.map some) i j) i acc (n, e) = .ok (dictSet n vs' acc) ∧
      vs'.length = ev.periods.length ∧ ∀ (k : Nat) (hk : k < ev.periods.length),
        (i ≤ k ∧ k < j → ∃ x z, vs'[k]? = some z ∧ Means pow (valueIn ev.vars k) e.tree x ∧
          Emitted (rate[k]'(by omega)) x z) ∧
        (¬ (i ≤ k ∧ k < j) → vs'[k]? = vs[k]?) := by
  obtain ⟨sub', fs, hs1, -, hs3, hs4⟩ := C19_subset pow e.tokens e ev i j hu.1 hu.2.1 hb hu.2.2 hij hj
  rw [hsub] at hs1
  obtain rfl := Except.ok.inj hs1
  obtain ⟨fs', v1, v2, v3⟩ := C19_value_per_period pow e.tokens e ev.vars ev.periods.length hu.1 hu.2.1 hu.2.2
  have hvs3 : ev.evaluate pow e = .ok fs' := v1
  rw [hvs3] at hs3
  obtain rfl := Except.ok.inj hs3
  obtain ⟨f, hf, hfa⟩ : ∃ f, EUnit.to .KILO_PER_DAY .TONS_PER_DAY = .ok f ∧ ∀ a : ℚ, 1000 * f a = a :=
    ⟨_, rfl, fun a => by ring⟩
  have hlen : (Periods.slice (rate.map some) i j).length = ((fs'.take j).drop i).length := by
    simp [Periods.slice]; omega
  unfold emissionStep
  simp only [hs4, Bind.bind, Except.bind]
  rw [npOp_same _ _ _ hlen]
  simp only [convertValues, hf, RateTS.liftU, Bind.bind, Except.bind, Pure.pure, Except.pure, hl]
  generalize htons : (List.zipWith Fl.mul (Periods.slice (rate.map some) i j) ((fs'.take j).drop i)).map
    (fun x => x.map f) = tons
  have htl : tons.length = j - i := by rw [← htons]; simp [Periods.slice]; omega
  obtain ⟨out, o1, o2, o3⟩ := addAt_ok i tons vs (by omega) (by
    intro k h1 h2; exact hz k h1 (by omega))
  rw [o1]
  refine ⟨out, rfl, by omega, fun k hk => ?_⟩
  have hok := o3 k
  rw [show i + tons.length = j by omega] at hok
  constructor
  · intro hin
    rw [if_pos hin] at hok
    have hkf : k < fs'.length := by omega
    refine ⟨fs'[k], (Fl.mul (some (rate[k]'(by omega))) fs'[k]).map f, ?_, v3 k hkf, tonnes_spec _ _ f hfa⟩
    rw [hok, ← htons, List.getElem?_map, List.getElem?_zipWith]
    have e1 : (Periods.slice (rate.map some) i j)[k - i]? = some (some (rate[k]'(by omega))) := by
      unfold Periods.slice
      rw [List.getElem?_drop, List.getElem?_take, if_pos (by omega), List.getElem?_map,
        show i + (k - i) = k by omega, List.getElem?_eq_getElem (by omega)]
      rfl
    have e2 : ((fs'.take j).drop i)[k - i]? = some fs'[k] := by
      rw [List.getElem?_drop, List.getElem?_take, if_pos (by omega), show i + (k - i) = k by omega,
        List.getElem?_eq_getElem (by omega)]
    rw [e1, e2]
    rfl
  · intro hout
    rw [if_neg hout] at hok
    exact hok

/-- All emissions of a fuel. -/
theorem fuel_fold (pow : Fl → Fl → Fl) {ev : VarMap} (hb : Built ev) (rate : List ℚ)
    (hrate : rate.length = ev.periods.length) (i j : Nat) (hij : i < j) (hj : j ≤ ev.periods.length)
    (sub : VarMap) (hsub : ev.getSubset i j = .ok sub) (es : FuelType) (hnd : (es.map (·.1)).Nodup)
    (hu : ∀ ne ∈ es, Usable ev.vars ev.periods.length ne.2) (acc : List (String × List Fl))
    (hacc : ∀ ne ∈ es, ∃ vs, acc.lookup ne.1 = some vs ∧ vs.length = ev.periods.length ∧
      ∀ k, i ≤ k → k < j → vs[k]? = some (some 0)) :
    ∃ acc', es.foldlM (emissionStep pow sub (Periods.slice (rate.map some) i j) i) acc = .ok acc' ∧
      (∀ n, n ∉ es.map (·.1) → acc'.lookup n = acc.lookup n) ∧
      ∀ n e, (n, e) ∈ es → ∃ vs vs', acc.lookup n = some vs ∧ acc'.lookup n = some vs' ∧
        vs'.length = ev.periods.length ∧ ∀ (k : Nat) (hk : k < ev.periods.length),
          (i ≤ k ∧ k < j → ∃ x z, vs'[k]? = some z ∧ Means pow (valueIn ev.vars k) e.tree x ∧
            Emitted (rate[k]'(by omega)) x z) ∧
          (¬ (i ≤ k ∧ k < j) → vs'[k]? = vs[k]?) := by
  induction es generalizing acc with
  | nil => exact ⟨acc, rfl, fun _ _ => rfl, by simp⟩
  | cons ne es ih =>
    obtain ⟨n, e⟩ := ne
    rw [List.map_cons, List.nodup_cons] at hnd
    obtain ⟨vs, hv1, hv2, hv3⟩ := hacc (n, e) (by simp)
    obtain ⟨vs', s1, s2, s3⟩ := emission_ok pow hb rate hrate i j hij hj sub hsub n e
      (hu (n, e) (by simp)) acc vs hv1 hv2 hv3
    have hne : ∀ m ∈ es.map (·.1), m ≠ n := fun m hm he => hnd.1 (he ▸ hm)
    obtain ⟨acc', g1, g2, g3⟩ := ih hnd.2 (fun ne h => hu ne (by simp [h])) (dictSet n vs' acc) (by
      intro ne hm
      rw [C26.lookup_dictSet_ne _ _ _ _ (hne ne.1 (List.mem_map.mpr ⟨ne, hm, rfl⟩))]
      exact hacc ne (by simp [hm]))
    refine ⟨acc', ?_, ?_, ?_⟩
    · rw [List.foldlM_cons, s1]; exact g1
    · intro m hm
      rw [List.map_cons, List.mem_cons, not_or] at hm
      rw [g2 m hm.2, C26.lookup_dictSet_ne _ _ _ _ hm.1]
    · intro m e' hm
      rcases List.mem_cons.mp hm with h | h
      · obtain ⟨rfl, rfl⟩ := Prod.mk.inj h
        refine ⟨vs, vs', hv1, ?_, s2, s3⟩
        rw [g2 m hnd.1, C26.lookup_dictSet_self]
      · have hmem : m ∈ es.map (·.1) := List.mem_map.mpr ⟨_, h, rfl⟩
        obtain ⟨ws, ws', w1, w2⟩ := g3 m e' h
        rw [C26.lookup_dictSet_ne _ _ _ _ (hne m hmem)] at w1
        exact ⟨ws, ws', w1, w2⟩

theorem lookup_of_mem {es : FuelType} (hnd : (es.map (·.1)).Nodup) {n : String} {e : Expr} (h : (n, e) ∈ es) :
    es.lookup n = some e := by
  induction es with
  | nil => simp at h
  | cons x es ih =>
    obtain ⟨m, e'⟩ := x
    rw [List.map_cons, List.nodup_cons] at hnd
    rcases List.mem_cons.mp h with h | h
    · obtain ⟨rfl, rfl⟩ := Prod.mk.inj h
      simp
    · have : n ≠ m := fun he => hnd.1 (he ▸ List.mem_map.mpr ⟨_, h, rfl⟩)
      rw [List.lookup_cons, beq_false_of_ne this]
      exact ih hnd.2 h

theorem lookup_none {es : FuelType} {n : String} (h : n ∉ es.map (·.1)) : es.lookup n = none := by
  rw [List.lookup_eq_none_iff]
  intro p hp
  simp only [ne_eq, bne_iff_ne]
  intro he
  exact h (List.mem_map.mpr ⟨p, hp, he.symm⟩)

/-- The invariant of the loop over fuels: every name has a list of the right length holding the expected emissions of
the fuels handled so far. -/
def Inv (pow : Fl → Fl → Fl) (ev : VarMap) (rate : List ℚ) (all : List String) (before : TModel FuelType)
    (acc : List (String × List Fl)) : Prop :=
  (∀ n, n ∉ all → acc.lookup n = none) ∧ ∀ n ∈ all, ∃ vs, acc.lookup n = some vs ∧ vs.length = ev.periods.length ∧
    ∀ (k : Nat) (hk : k < ev.periods.length) (hr : k < rate.length), ∃ z, vs[k]? = some z ∧
      Expected pow ev.vars k rate[k] (current before ev.periods[k]) n z

theorem current_append {α : Type} (l : List (Period × α)) (p : Period) (a : α) (q : Period) :
    current (l ++ [(p, a)]) q = if Covers p q then some a else current l q := by
  induction l with
  | nil => simp [current]
  | cons x l ih =>
    obtain ⟨p', a'⟩ := x
    rw [List.cons_append, current, ih]
    by_cases h : Covers p q
    · simp [h]
    · simp [h, current]

theorem current_none {α : Type} (l : List (Period × α)) (q : Period) (h : ∀ pa ∈ l, ¬ Covers pa.1 q) :
    current l q = none := by
  induction l with
  | nil => rfl
  | cons x l ih =>
    obtain ⟨p', a'⟩ := x
    rw [current, ih (fun pa hpa => h pa (by simp [hpa]))]
    simp [h (p', a') (by simp)]

theorem fuel_loop (pow : Fl → Fl → Fl) {ev : VarMap} (hb : Built ev) {own : Period} (ho : ev.period = .ok own)
    (rate : List ℚ) (hrate : rate.length = ev.periods.length) (all : List String) (rest : TModel FuelType) :
    ∀ (before : TModel FuelType) (acc : List (String × List Fl)), Fuels ev own (before ++ rest) →
      (∀ pm ∈ rest, ∀ ne ∈ pm.2, ne.1 ∈ all) → Inv pow ev rate all before acc →
      ∃ out, rest.foldlM (fuelStep pow ev (rate.map some)) acc = .ok out ∧
        Inv pow ev rate all (before ++ rest) out := by
  induction rest with
  | nil => intro before acc _ _ hinv; exact ⟨acc, rfl, by simpa using hinv⟩
  | cons pm rest ih =>
    intro before acc hF hall hinv
    obtain ⟨p, es⟩ := pm
    have hmem : (p, es) ∈ before ++ (p, es) :: rest := by simp
    have hpp := hF.proper _ hmem
    have hdis : ∀ b ∈ before, b.1.stop ≤ p.start ∨ p.stop ≤ b.1.start := by
      intro b hb'
      exact (List.pairwise_append.mp hF.disjoint).2.2 b hb' (p, es) (by simp)
    have hstep : ∃ mid, fuelStep pow ev (rate.map some) acc (p, es) = .ok mid ∧
        Inv pow ev rate all (before ++ [(p, es)]) mid := by
      unfold fuelStep
      simp only [ho, Bind.bind, Except.bind]
      by_cases hi : Period.intersects p own = true
      · obtain ⟨i, j, h1, h2, h3, h4⟩ := (indices_ok hb ho hpp hi).1 (hF.aligned _ hmem hi)
        obtain ⟨sub, hs, -⟩ := subset_ok hb i j h2 h3
        simp only [hi, if_true, h1, hs]
        have hzero : ∀ n ∈ all, ∃ vs, acc.lookup n = some vs ∧ vs.length = ev.periods.length ∧
            ∀ k, i ≤ k → k < j → vs[k]? = some (some 0) := by
          intro n hn
          obtain ⟨vs, v1, v2, v3⟩ := hinv.2 n hn
          refine ⟨vs, v1, v2, fun k hk1 hk2 => ?_⟩
          obtain ⟨z, z1, z2⟩ := v3 k (by omega) (by omega)
          have hc : Covers p (ev.periods[k]'(by omega)) := (h4 k (by omega)).mpr ⟨hk1, hk2⟩
          have hnone : current before (ev.periods[k]'(by omega)) = none := by
            apply current_none
            intro pa hpa hcov
            have hq : (ev.periods[k]'(by omega)).start < (ev.periods[k]'(by omega)).stop := by
              obtain ⟨hl, hsort, hper⟩ := built_facts hb
              obtain ⟨k1, k2, k3⟩ := hper k (by omega)
              rw [k3]
              exact (sorted_lt hsort k1 k2).mpr (by omega)
            have := hdis pa hpa
            unfold Covers at hc hcov
            omega
          rw [hnone] at z2
          rw [z1]
          exact congrArg some z2
        obtain ⟨mid, g1, g2, g3⟩ := fuel_fold pow hb rate hrate i j h2 h3 sub hs es (hF.names _ hmem)
          (hF.usable _ hmem) acc (fun ne hne => hzero ne.1 (hall (p, es) (by simp) ne hne))
        refine ⟨mid, g1, fun n hn => ?_, fun n hn => ?_⟩
        · rw [g2 n (fun hmem' => ?_)]
          · exact hinv.1 n hn
          · obtain ⟨ne, hne, rfl⟩ := List.mem_map.mp hmem'
            exact hn (hall (p, es) (by simp) ne hne)
        · obtain ⟨vs, v1, v2, v3⟩ := hinv.2 n hn
          by_cases hlisted : n ∈ es.map (·.1)
          · obtain ⟨⟨n', e⟩, hne, rfl⟩ := List.mem_map.mp hlisted
            obtain ⟨ws, vs', w1, w2, w3, w4⟩ := g3 n' e hne
            rw [v1] at w1
            obtain rfl := Option.some.inj w1
            refine ⟨vs', w2, w3, fun k hk hr => ?_⟩
            rw [current_append]
            obtain ⟨k1, k2⟩ := w4 k hk
            rw [← h4 k hk] at k1 k2
            by_cases hcov : Covers p ev.periods[k]
            · obtain ⟨x, z, q1, q2, q3⟩ := k1 hcov
              refine ⟨z, q1, ?_⟩
              rw [if_pos hcov]
              simp only [Expected, lookup_of_mem (hF.names _ hmem) hne]
              exact ⟨x, q2, q3⟩
            · rw [if_neg hcov, k2 hcov]
              exact v3 k hk hr
          · refine ⟨vs, by rw [g2 n hlisted, v1], v2, fun k hk hr => ?_⟩
            obtain ⟨z, z1, z2⟩ := v3 k hk hr
            rw [current_append]
            by_cases hcov : Covers p ev.periods[k]
            · rw [if_pos hcov]
              refine ⟨some 0, ?_, ?_⟩
              · obtain ⟨vs0, u1, u2, u3⟩ := hzero n hn
                rw [v1] at u1
                obtain rfl := Option.some.inj u1
                have := (h4 k hk).mp hcov
                exact u3 k this.1 this.2
              · simp only [Expected, lookup_none hlisted]
            · rw [if_neg hcov]
              exact ⟨z, z1, z2⟩
      · have hi' : Period.intersects p own = false := by simpa using hi
        refine ⟨acc, by simp [hi', Pure.pure, Except.pure], hinv.1, fun n hn => ?_⟩
        obtain ⟨vs, v1, v2, v3⟩ := hinv.2 n hn
        refine ⟨vs, v1, v2, fun k hk hr => ?_⟩
        rw [current_append, if_neg (not_covered hb ho hi' k hk)]
        exact v3 k hk hr
    obtain ⟨mid, m1, m2⟩ := hstep
    obtain ⟨out, o1, o2⟩ := ih (before ++ [(p, es)]) mid (by simpa using hF)
      (fun pm h => hall pm (by simp [h])) m2
    refine ⟨out, ?_, by simpa using o2⟩
    rw [List.foldlM_cons, m1]
    exact o1

theorem lookup_init (all : List String) (n : Nat) (m : String) :
    (all.map (fun k => (k, List.replicate n (some (0 : ℚ))))).lookup m =
      if m ∈ all then some (List.replicate n (some 0)) else none := by
  induction all with
  | nil => simp
  | cons a all ih =>
    rw [List.map_cons, List.lookup_cons]
    by_cases h : m = a
    · simp [h]
    · rw [beq_false_of_ne h]
      simp only [ih, List.mem_cons, h, false_or]

/-! ## Theorems -/

/-- The emissions reported are those listed by some fuel, each with one value per period: fuel rate times the factor
of the fuel in force in that period, in tonnes; zero where that fuel does not list the emission and where no fuel is
in force. -/
theorem C31_emissions (pow : Fl → Fl → Fl) (ev : VarMap) (hb : Built ev) (own : Period) (ho : ev.period = .ok own)
    (models : TModel FuelType) (hF : Fuels ev own models) (rate : List ℚ)
    (hrate : rate.length = ev.periods.length) :
    ∃ out, evaluateEmissions pow ev models (rate.map some) = .ok out ∧
      (∀ n, (out.lookup n).isSome = true ↔ ∃ pm ∈ models, ∃ ne ∈ pm.2, ne.1 = n) ∧
      ∀ n vs, out.lookup n = some vs → vs.length = ev.periods.length ∧
        ∀ (k : Nat) (hk : k < ev.periods.length) (hr : k < rate.length) (hv : k < vs.length),
          Expected pow ev.vars k rate[k] (current models ev.periods[k]) n vs[k] := by
  have hnames : ∀ n, n ∈ names models ↔ ∃ pm ∈ models, ∃ ne ∈ pm.2, ne.1 = n := by
    intro n
    unfold names
    simp [List.mem_dedup]
  obtain ⟨out, h1, h2, h3⟩ := fuel_loop pow hb ho rate hrate (names models) models []
    ((names models).map (fun n => (n, List.replicate ev.periods.length (some 0)))) (by simpa using hF)
    (fun pm hpm ne hne => (hnames ne.1).mpr ⟨pm, hpm, ne, hne, rfl⟩)
    ⟨fun n hn => by rw [lookup_init, if_neg hn], fun n hn => ⟨_, by rw [lookup_init, if_pos hn], by simp,
      fun k hk hr => ⟨some 0, by simp [hk], rfl⟩⟩⟩
  simp only [List.nil_append] at h2 h3
  refine ⟨out, h1, fun n => ?_, fun n vs hvs => ?_⟩
  · rw [← hnames n]
    by_cases hn : n ∈ names models
    · obtain ⟨vs, v1, -⟩ := h3 n hn
      simp [v1, hn]
    · simp [h2 n hn, hn]
  · by_cases hn : n ∈ names models
    · obtain ⟨vs', v1, v2, v3⟩ := h3 n hn
      rw [v1] at hvs
      obtain rfl := Option.some.inj hvs
      refine ⟨v2, fun k hk hr hv => ?_⟩
      obtain ⟨z, z1, z2⟩ := v3 k hk hr
      rw [List.getElem?_eq_getElem hv] at z1
      obtain rfl := Option.some.inj z1
      exact z2
    · rw [h2 n hn] at hvs
      simp at hvs

/-- Two fuels in time: the first lists co2 and nox, the second only co2 with another factor. -/
def sampleEv : VarMap := ⟨[⟨0, 10⟩, ⟨10, 20⟩, ⟨20, 30⟩], [0, 10, 20, 30], [("f;x", [some 1, some 2, some 3])]⟩
def num (q : ℚ) : Expr := ⟨[.num q], .leaf (.num q)⟩
def ref (s : String) : Expr := ⟨[.ref s], .leaf (.ref s)⟩
def sampleFuels : TModel FuelType :=
  [(⟨0, 10⟩, [("co2", num 2), ("nox", num 3)]), (⟨10, 100⟩, [("co2", ref "f;x")])]

example : evaluateEmissions (fun _ _ => none) sampleEv sampleFuels [some 1000, some 1000, some 2000]
    = .ok [("nox", [some 3, some 0, some 0]), ("co2", [some 2, some 2, some 6])] := by decide +kernel

example : Fuels sampleEv ⟨0, 30⟩ sampleFuels where
  proper := by decide
  disjoint := by decide
  aligned := by unfold Aligned; decide
  names := by decide
  usable := by
    have h1 : Usable sampleEv.vars sampleEv.periods.length (num 2) :=
      ⟨rfl, by intro s hs; simp [num] at hs, by intro s hs; simp [num] at hs⟩
    have h2 : Usable sampleEv.vars sampleEv.periods.length (num 3) :=
      ⟨rfl, by intro s hs; simp [num] at hs, by intro s hs; simp [num] at hs⟩
    have h3 : Usable sampleEv.vars sampleEv.periods.length (ref "f;x") :=
      ⟨rfl, by intro s hs; simp [ref] at hs, by
        intro s hs; simp [ref] at hs; subst hs; exact ⟨[some 1, some 2, some 3], by decide +kernel, rfl⟩⟩
    intro pm hpm ne hne
    simp only [sampleFuels, List.mem_cons, List.not_mem_nil, or_false] at hpm
    rcases hpm with rfl | rfl
    · simp only [List.mem_cons, List.not_mem_nil, or_false] at hne
      rcases hne with rfl | rfl <;> assumption
    · simp only [List.mem_cons, List.not_mem_nil, or_false] at hne
      subst hne; assumption

/-- No period is counted twice: for every period at most one fuel is in force. -/
theorem C31_one_fuel (ev : VarMap) (hb : Built ev) (own : Period) (models : TModel FuelType)
    (hF : Fuels ev own models) (k : Nat) (hk : k < ev.periods.length) (i j : Nat) (hi : i < models.length)
    (hj : j < models.length) (h1 : Covers (models[i]).1 ev.periods[k]) (h2 : Covers (models[j]).1 ev.periods[k]) :
    i = j := by
  have hq : (ev.periods[k]).start < (ev.periods[k]).stop := by
    obtain ⟨hl, hsort, hper⟩ := built_facts hb
    obtain ⟨k1, k2, k3⟩ := hper k hk
    rw [k3]
    exact (sorted_lt hsort k1 k2).mpr (by omega)
  have hd := List.pairwise_iff_getElem.mp hF.disjoint
  unfold Covers at h1 h2
  rcases Nat.lt_trichotomy i j with h | h | h
  · have := hd i j hi hj h; omega
  · exact h
  · have := hd j i hj hi h; omega

/-- The uniqueness check of the names of a fuel accepts exactly the lists without repetitions. -/
theorem C31_unique_names (ns : List String) : uniqueNames ns = .ok ns ↔ ns.Nodup := by
  have key : ∀ (ns seen : List String), Names.duplicatesFrom seen ns = [] ↔ ns.Nodup ∧ ∀ n ∈ ns, n ∉ seen := by
    intro ns
    induction ns with
    | nil => intro seen; simp [Names.duplicatesFrom]
    | cons n ns ih =>
      intro seen
      rw [Names.duplicatesFrom]
      by_cases h : n ∈ seen
      · simp [h]
      · simp only [h, if_false, ih, List.nodup_cons, List.mem_cons]
        constructor
        · rintro ⟨a, b⟩
          refine ⟨⟨fun hm => ?_, a⟩, ?_⟩
          · have := b n hm; simp at this
          · rintro m (rfl | hm)
            · exact h
            · have := b m hm; simp at this; exact this.2
        · rintro ⟨⟨a, b⟩, c⟩
          refine ⟨b, fun m hm => ?_⟩
          rw [not_or]
          exact ⟨fun he => a (he ▸ hm), c m (Or.inr hm)⟩
  unfold uniqueNames Names.getDuplicates
  have := key ns []
  by_cases h : Names.duplicatesFrom [] ns = []
  · simp only [h, if_true, true_iff]; exact (this.mp h).1
  · simp only [h, if_false]
    constructor
    · intro h'; simp at h'
    · intro h'; exact absurd (this.mpr ⟨h', by simp⟩) h

example : uniqueNames ["co2", "nox"] = .ok ["co2", "nox"] ∧ uniqueNames ["co2", "nox", "co2"] = .error .validation := by
  constructor <;> decide +kernel

/-- The names are compared before they are converted to lower case: a fuel with emissions `CO2` and `co2` is accepted,
and its evaluation fails with an assertion error. -/
theorem C31_case_clash :
    uniqueNames ["CO2", "co2"] = .ok ["CO2", "co2"] ∧
    evaluateEmissions (fun _ _ => none) sampleEv [(⟨0, 100⟩, lowerNames [("CO2", num 2), ("co2", num 3)])]
      [some 1000, some 1000, some 2000] = .error .assertion := by
  constructor <;> decide +kernel

end Verif.C31
