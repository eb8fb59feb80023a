import Verif.Props.C19
import Verif.Lemmas.Temporal

/-!
# C20: a time-varying expression is evaluated with the definition in force in each period
-/

namespace Verif.C20
open Verif.Time Verif.Rates Verif.Expression Verif.Variables Verif.C19

/-! ## Specification -/

/-- The definition period `p` covers the global period `q`. -/
def Covers (p q : Period) : Prop := p.start ≤ q.start ∧ q.stop ≤ p.stop

instance (p q : Period) : Decidable (Covers p q) := by unfold Covers; infer_instance

/-- The last of the definitions that cover `q`; for a temporal model, whose periods do not overlap, the only one. -/
def inForce : List (Period × Expr) → Period → Option Expr
  | [], _ => none
  | (p, e) :: rest, q =>
    match inForce rest q with
    | some e' => some e'
    | none => if Covers p q then some e else none

/-- `x` is the value in period `k` of the definition in force there, zero if there is none. -/
def ValueInForce (pow : Fl → Fl → Fl) (vars : Vars) (k : Nat) (current : Option Expr) (x : Fl) : Prop :=
  match current with
  | some e => Means pow (valueIn vars k) e.tree x
  | none => x = some 0

/-- A usable expression: accepted by the parser, supported operators, all its names available. -/
def Usable (vars : Vars) (n : Nat) (e : Expr) : Prop :=
  Expr.make e.tokens = .ok e ∧ Supported e.tokens ∧ Available vars n e.tokens

/-- The part of `p` inside the map starts and ends on dates of the map. -/
def Aligned (m : VarMap) (own p : Period) : Prop :=
  max p.start own.start ∈ m.timeVector ∧ min p.stop own.stop ∈ m.timeVector

/-- Among definitions listed by start date, `e` is in force during the whole of `q`: its date is not after the start
of `q` and no later date comes before the end of `q`. -/
def InForceFrom (es : List (Int × Expr)) (q : Period) (e : Expr) : Prop :=
  ∃ d, (d, e) ∈ es ∧ d ≤ q.start ∧ ∀ d' ∈ es.map (·.1), d < d' → q.stop ≤ d'

/-! ## Helper lemmas -/

theorem setSlice_get {α : Type} (xs ys : List α) (i j k : Nat) (hij : i ≤ j) (hj : j ≤ xs.length)
    (hy : ys.length = j - i) :
    (setSlice xs i j ys).length = xs.length ∧
    (setSlice xs i j ys)[k]? = if i ≤ k ∧ k < j then ys[k - i]? else xs[k]? := by
  have hmax : max i j = j := by omega
  unfold setSlice
  rw [hmax]
  constructor
  · simp; omega
  · rw [List.append_assoc, List.getElem?_append]
    simp only [List.length_take]
    rw [show min i xs.length = i by omega]
    split
    · rw [if_neg (by omega), List.getElem?_take, if_pos (by omega)]
    · rw [List.getElem?_append]
      split
      · rw [if_pos (by omega)]
      · rw [if_neg (by omega), List.getElem?_drop]
        congr 1; omega

theorem indices_ok {m : VarMap} (hb : Built m) {own p : Period} (ho : m.period = .ok own)
    (hp : p.start < p.stop) (hi : Period.intersects p own = true) :
    (Aligned m own p → ∃ i j, Period.getPeriodIndices p m.periods = .ok (i, j) ∧ i < j ∧ j ≤ m.periods.length ∧
      ∀ (k : Nat) (hk : k < m.periods.length), Covers p m.periods[k] ↔ i ≤ k ∧ k < j) ∧
    (¬ Aligned m own p → Period.getPeriodIndices p m.periods = .error .programmingError) := by
  obtain ⟨hl, hsort, hper⟩ := built_facts hb
  obtain ⟨h0, hn, hown⟩ := built_period hb
  rw [hown] at ho
  obtain rfl := Except.ok.inj ho
  obtain ⟨q, hq, htv⟩ := built_dates hb
  have hne : m.periods ≠ [] := by intro h; rw [h] at hq; simp at hq
  have hpos : 0 < m.periods.length := List.length_pos_of_ne_nil hne
  have hf : m.periods.head? = some m.periods[0] := by
    rw [List.head?_eq_getElem?, List.getElem?_eq_getElem hpos]
  have hf0 : (m.periods[0]).start = m.timeVector[0] := by
    obtain ⟨a, b, c⟩ := hper 0 hpos; rw [c]
  have hqn : q.stop = m.timeVector[m.periods.length] := by simp [htv]
  have hst : Periods.startDates m.periods = m.timeVector.take m.periods.length := by
    rw [htv]; simp [Periods.startDates]
  have hint : p.start < m.timeVector[m.periods.length] ∧ m.timeVector[0] < p.stop := by
    simp [Period.intersects, Period.containsDate] at hi
    have := (sorted_lt hsort h0 hn).mpr hpos
    omega
  have htl : (m.timeVector.take m.periods.length).length = m.periods.length := by simp; omega
  have hts : (m.timeVector.take m.periods.length).Pairwise (· < ·) := hsort.sublist (List.take_sublist _ _)
  constructor
  · rintro ⟨ha, hb'⟩
    simp only at ha hb'
    obtain ⟨i, hi1, hi2⟩ := List.mem_iff_getElem.mp ha
    obtain ⟨j, hj1, hj2⟩ := List.mem_iff_getElem.mp hb'
    have h0n := (sorted_lt hsort h0 hn).mpr hpos
    have hin : i < m.periods.length := (sorted_lt hsort hi1 hn).mp (by omega)
    have hij : i < j := (sorted_lt hsort hi1 hj1).mp (by omega)
    refine ⟨i, j, ?_, hij, by omega, ?_⟩
    · unfold Period.getPeriodIndices
      simp only [hf, hq, hst, hf0, hqn, hb.2]
      have e1 : Periods.pyIndex (m.timeVector.take m.periods.length) (max p.start m.timeVector[0]) = .ok i := by
        rw [← hi2]
        have := sorted_index hts (i := i) (by omega)
        rwa [List.getElem_take] at this
      rw [e1]
      simp only [← hj2, sorted_index hsort hj1]
    · intro k hk
      obtain ⟨k1, k2, k3⟩ := hper k hk
      unfold Covers
      rw [k3]
      have g1 := sorted_le hsort hi1 k1
      have g2 := sorted_le hsort k2 hj1
      have g3 := sorted_le hsort h0 k1
      have g4 := sorted_le hsort k2 hn
      simp only
      rw [hi2] at g1
      rw [hj2] at g2
      omega
  · intro hna
    unfold Period.getPeriodIndices
    simp only [hf, hq, hst, hf0, hqn, hb.2]
    by_cases ha : max p.start m.timeVector[0] ∈ m.timeVector
    · have hb' : min p.stop m.timeVector[m.periods.length] ∉ m.timeVector := fun h => hna ⟨ha, h⟩
      have : m.timeVector.idxOf? (min p.stop m.timeVector[m.periods.length]) = none := by simpa using hb'
      cases Periods.pyIndex (m.timeVector.take m.periods.length) (max p.start m.timeVector[0]) with
      | error e => rfl
      | ok i => simp only [Periods.pyIndex, this]
    · have : (m.timeVector.take m.periods.length).idxOf? (max p.start m.timeVector[0]) = none := by
        simp only [List.idxOf?_eq_none_iff]
        exact fun h => ha (List.mem_of_mem_take h)
      simp only [Periods.pyIndex, this]

theorem not_covered {m : VarMap} (hb : Built m) {own p : Period} (ho : m.period = .ok own)
    (hi : Period.intersects p own = false) (k : Nat) (hk : k < m.periods.length) : ¬ Covers p m.periods[k] := by
  obtain ⟨hl, hsort, hper⟩ := built_facts hb
  obtain ⟨h0, hn, hown⟩ := built_period hb
  rw [hown] at ho
  obtain rfl := Except.ok.inj ho
  obtain ⟨k1, k2, k3⟩ := hper k hk
  intro hc
  unfold Covers at hc
  rw [k3] at hc
  simp [Period.intersects, Period.containsDate] at hi
  have g1 := (sorted_lt hsort k1 k2).mpr (by omega)
  have g3 := (sorted_le hsort h0 k1).mpr (by omega)
  have g4 := (sorted_le hsort k2 hn).mpr (by omega)
  simp only at hc
  omega

theorem step_ok (pow : Fl → Fl → Fl) {m : VarMap} (hb : Built m) {own p : Period} (ho : m.period = .ok own)
    (hp : p.start < p.stop) (e : Expr) (hu : Usable m.vars m.periods.length e)
    (ha : Period.intersects p own = true → Aligned m own p) (result : List Fl)
    (hr : result.length = m.periods.length) :
    ∃ result', m.temporalStep pow result (p, e) = .ok result' ∧ result'.length = m.periods.length ∧
      ∀ (k : Nat) (hk : k < m.periods.length),
        (Covers p m.periods[k] → ∃ x, result'[k]? = some x ∧ Means pow (valueIn m.vars k) e.tree x) ∧
        (¬ Covers p m.periods[k] → result'[k]? = result[k]?) := by
  unfold VarMap.temporalStep
  rw [ho]
  simp only [Bind.bind, Except.bind]
  cases hi : Period.intersects p own with
  | false =>
    refine ⟨result, by simp [Pure.pure, Except.pure], hr, fun k hk => ?_⟩
    have := not_covered hb ho hi k hk
    exact ⟨fun h => absurd h this, fun _ => rfl⟩
  | true =>
    obtain ⟨i, j, hidx, hij, hj, hcov⟩ := (indices_ok hb ho hp hi).1 (ha hi)
    obtain ⟨sub, vs, hs1, -, hs3, hs4⟩ := C19_subset pow e.tokens e m i j hu.1 hu.2.1 hb hu.2.2 hij hj
    obtain ⟨vs', v1, v2, v3⟩ := C19_value_per_period pow e.tokens e m.vars m.periods.length hu.1 hu.2.1 hu.2.2
    have hvs : m.evaluate pow e = .ok vs' := v1
    rw [hvs] at hs3
    obtain rfl := Except.ok.inj hs3
    simp only [if_true, hidx, hs1, hs4, Pure.pure, Except.pure]
    have hlen : ((vs'.take j).drop i).length = j - i := by simp; omega
    refine ⟨_, rfl, ?_, ?_⟩
    · rw [(setSlice_get result ((vs'.take j).drop i) i j 0 (by omega) (by omega) hlen).1, hr]
    · intro k hk
      rw [(setSlice_get result ((vs'.take j).drop i) i j k (by omega) (by omega) hlen).2, hcov k hk]
      constructor
      · intro h
        rw [if_pos h]
        refine ⟨vs'[k]'(by omega), ?_, v3 k (by omega)⟩
        rw [List.getElem?_drop, List.getElem?_take, if_pos (by omega), List.getElem?_eq_getElem (by omega)]
        congr 2; omega
      · intro h; rw [if_neg h]

theorem fold_ok (pow : Fl → Fl → Fl) {m : VarMap} (hb : Built m) {own : Period} (ho : m.period = .ok own)
    (model : TModel Expr)
    (hm : ∀ pe ∈ model, pe.1.start < pe.1.stop ∧ Usable m.vars m.periods.length pe.2 ∧
      (Period.intersects pe.1 own = true → Aligned m own pe.1)) :
    ∀ result, result.length = m.periods.length →
    ∃ vs, model.foldlM (m.temporalStep pow) result = .ok vs ∧ vs.length = m.periods.length ∧
      ∀ (k : Nat) (hk : k < m.periods.length),
        match inForce model m.periods[k] with
        | some e => ∃ x, vs[k]? = some x ∧ Means pow (valueIn m.vars k) e.tree x
        | none => vs[k]? = result[k]? := by
  induction model with
  | nil => intro result hr; exact ⟨result, rfl, hr, fun k hk => rfl⟩
  | cons pe rest ih =>
    intro result hr
    obtain ⟨p, e⟩ := pe
    obtain ⟨hp, hu, ha⟩ := hm (p, e) (by simp)
    obtain ⟨result', h1, h2, h3⟩ := step_ok pow hb ho hp e hu ha result hr
    obtain ⟨vs, g1, g2, g3⟩ := ih (fun pe h => hm pe (by simp [h])) result' h2
    refine ⟨vs, ?_, g2, ?_⟩
    · simp only [List.foldlM_cons, h1, Bind.bind, Except.bind]; exact g1
    · intro k hk
      have := g3 k hk
      rw [inForce]
      cases hr : inForce rest m.periods[k] with
      | some e' => rw [hr] at this; exact this
      | none =>
        rw [hr] at this
        simp only at this ⊢
        split
        · rename_i e0 he0
          split at he0
          · rename_i hc
            simp at he0; subst he0
            rw [this]; exact (h3 k hk).1 hc
          · simp at he0
        · rename_i he0
          split at he0
          · simp at he0
          · rename_i hc
            rw [this]; exact (h3 k hk).2 hc

theorem create_dates (es : List (Int × Expr)) :
    Periods.createPeriods (es.map (·.1)) false true = (datesToPeriods es).map (·.1) := by
  match es with
  | [] => rfl
  | x :: es =>
    simp only [List.map_cons, Periods.createPeriods]
    simp only [Bool.false_eq_true, if_false, List.nil_append, if_true]
    induction es generalizing x with
    | nil => rfl
    | cons y es ih =>
      have := ih y
      simp only [List.map_cons, Periods.pairs, datesToPeriods, List.cons_append, List.getLast_cons_cons] at this ⊢
      rw [this]

theorem zip_dates (es : List (Int × Expr)) :
    ((datesToPeriods es).map (·.1)).zip (es.map (·.2)) = datesToPeriods es := by
  induction es with
  | nil => rfl
  | cons x es ih =>
    cases es with
    | nil => rfl
    | cons y es =>
      simp only [List.map_cons, datesToPeriods, List.zip_cons_cons] at ih ⊢
      rw [ih]

theorem sort_sorted (l : List Int) (h : l.Pairwise (· < ·)) :
    l.mergeSort (fun a b => decide (a ≤ b)) = l := by
  apply List.mergeSort_of_pairwise
  exact h.imp (fun h => by simp; omega)

theorem mapM_ok {α β : Type} (f : α → Except Err β) (l : List α) (h : ∀ x ∈ l, ∃ y, f x = .ok y) :
    ∃ ys, l.mapM f = .ok ys ∧ ys.length = l.length ∧ ∀ (k : Nat) (hk : k < l.length) (hk' : k < ys.length),
      f l[k] = .ok ys[k] := by
  induction l with
  | nil => exact ⟨[], rfl, rfl, by simp⟩
  | cons a l ih =>
    obtain ⟨y, hy⟩ := h a (by simp)
    obtain ⟨ys, h1, h2, h3⟩ := ih (fun x hx => h x (by simp [hx]))
    refine ⟨y :: ys, ?_, by simp [h2], ?_⟩
    · rw [List.mapM_cons, hy, h1]; rfl
    · intro k hk hk'
      cases k with
      | zero => simpa using hy
      | succ k => simpa using h3 k (by simpa using hk) (by simpa using hk')

/-- The period of a date key that covers `q`. -/
theorem covering_date (es : List (Int × Expr)) (hinc : (es.map (·.1)).Pairwise (· < ·)) (q : Period) (e : Expr)
    (hq : q.stop ≤ dtMax) : (∃ p, (p, e) ∈ datesToPeriods es ∧ Covers p q) ↔ InForceFrom es q e := by
  unfold InForceFrom Covers
  induction es with
  | nil => simp [datesToPeriods]
  | cons x es ih =>
    obtain ⟨d, a⟩ := x
    cases es with
    | nil =>
      simp only [datesToPeriods, List.mem_singleton, List.map_cons, List.map_nil]
      constructor
      · rintro ⟨p, hp, h1, h2⟩
        obtain ⟨rfl, rfl⟩ := Prod.mk.inj hp
        exact ⟨d, rfl, h1, fun d' hd' hlt => by omega⟩
      · rintro ⟨d', hd, h1, -⟩
        obtain ⟨rfl, rfl⟩ := Prod.mk.inj hd
        exact ⟨_, rfl, h1, hq⟩
    | cons y es =>
      obtain ⟨d2, a2⟩ := y
      have ih := ih (List.pairwise_cons.mp hinc).2
      have hd : ∀ d' ∈ ((d2, a2) :: es).map (·.1), d < d' := (List.pairwise_cons.mp hinc).1
      have hd2 : ∀ d' ∈ ((d2, a2) :: es).map (·.1), d2 ≤ d' := by
        intro d' h
        rcases List.mem_cons.mp h with rfl | h
        · exact Int.le_refl _
        · exact Int.le_of_lt ((List.pairwise_cons.mp (List.pairwise_cons.mp hinc).2).1 d' h)
      constructor
      · rintro ⟨p, hp, h1, h2⟩
        rw [datesToPeriods] at hp
        rcases List.mem_cons.mp hp with hp | hp
        · obtain ⟨rfl, rfl⟩ := Prod.mk.inj hp
          refine ⟨d, by simp, h1, fun d' hd' hlt => ?_⟩
          rw [List.map_cons] at hd'
          rcases List.mem_cons.mp hd' with h | h
          · simp only at h; omega
          · have := hd2 d' h; simp only at h2; omega
        · obtain ⟨d', g1, g2, g3⟩ := ih.mp ⟨p, hp, h1, h2⟩
          refine ⟨d', by simp [g1], g2, fun d'' hd'' hlt => ?_⟩
          rw [List.map_cons] at hd''
          rcases List.mem_cons.mp hd'' with h | h
          · have := hd d' (List.mem_map.mpr ⟨_, g1, rfl⟩); simp only at h; omega
          · exact g3 d'' h hlt
      · rintro ⟨d', g1, g2, g3⟩
        rcases List.mem_cons.mp g1 with h | h
        · obtain ⟨rfl, rfl⟩ := Prod.mk.inj h
          refine ⟨⟨d', d2⟩, by simp [datesToPeriods], g2, ?_⟩
          exact g3 d2 (by simp) (hd d2 (by simp))
        · obtain ⟨p, hp, hc⟩ := ih.mpr ⟨d', h, g2, fun d'' hd'' => g3 d'' (by
            rw [List.map_cons]; exact List.mem_cons_of_mem _ hd'')⟩
          exact ⟨p, by rw [datesToPeriods]; exact List.mem_cons_of_mem _ hp, hc⟩

theorem lookup_nodup {β : Type} (vals : List (Period × β)) (h : (vals.map (·.1)).Nodup) (i : Nat)
    (hi : i < vals.length) : vals.lookup (vals[i]).1 = some (vals[i]).2 := by
  induction vals generalizing i with
  | nil => simp at hi
  | cons x vals ih =>
    obtain ⟨k, v⟩ := x
    rw [List.map_cons, List.nodup_cons] at h
    cases i with
    | zero => simp
    | succ i =>
      have hi' : i < vals.length := by simpa using hi
      simp only [List.getElem_cons_succ, List.lookup_cons]
      have : ((vals[i]).1 == k) = false := by
        rw [beq_eq_false_iff_ne]
        intro he
        exact h.1 (List.mem_map.mpr ⟨vals[i], by simp, he⟩)
      rw [this]
      exact ih h.2 i hi'

/-- Values of a time-dependent variable for any assignment `L` of disjoint periods to expressions. -/
theorem temporal_values (pow : Fl → Fl → Fl) (vars : Vars) (ps : Periods) (hw : ∀ q ∈ ps, q.start < q.stop)
    (L : List (Period × Expr)) (hu : ∀ pe ∈ L, Usable vars ps.length pe.2)
    (hdis : (L.map (·.1)).Pairwise (fun a b => a.stop ≤ b.start ∧ a.start < b.start)) :
    ∃ vs, (do
      let vals ← L.mapM (fun pe => do
        let v ← pe.2.evaluate pow vars ps.length
        return (pe.1, v))
      ps.zipIdx.mapM (fun pi => temporalValue (L.map (·.1)) vals pi.1 pi.2)) = Except.ok (ε := Err) vs ∧
      vs.length = ps.length ∧ ∀ (k : Nat) (hk : k < ps.length) (hk' : k < vs.length),
        (∀ p e, (p, e) ∈ L → Covers p ps[k] → Means pow (valueIn vars k) e.tree vs[k]) ∧
        ((∀ p e, (p, e) ∈ L → ¬ Covers p ps[k]) → vs[k] = some 0) := by
  obtain ⟨vals, h1, h2, h3⟩ := mapM_ok (fun pe : Period × Expr => do
        let v ← pe.2.evaluate pow vars ps.length
        return (pe.1, v)) L (by
    intro pe hpe
    obtain ⟨m1, m2, m3⟩ := hu pe hpe
    obtain ⟨vs, v1, -, -⟩ := C19_value_per_period pow _ _ vars ps.length m1 m2 m3
    exact ⟨(pe.1, vs), by simp [v1, Bind.bind, Except.bind, Pure.pure, Except.pure]⟩)
  have hval : ∀ (i : Nat) (hi : i < L.length) (hi' : i < vals.length), (vals[i]).1 = (L[i]).1 ∧
      (vals[i]).2.length = ps.length ∧
      ∀ (k : Nat) (hk : k < (vals[i]).2.length), Means pow (valueIn vars k) (L[i]).2.tree (vals[i]).2[k] := by
    intro i hi hi'
    have := h3 i hi hi'
    obtain ⟨m1, m2, m3⟩ := hu L[i] (by simp)
    obtain ⟨vs, v1, v2, v3⟩ := C19_value_per_period pow _ _ vars ps.length m1 m2 m3
    simp only [v1, Bind.bind, Except.bind, Pure.pure, Except.pure, Except.ok.injEq] at this
    rw [← this]
    exact ⟨rfl, v2, v3⟩
  have hkeys : vals.map (·.1) = L.map (·.1) := by
    apply List.ext_getElem
    · simp [h2]
    · intro i hi hi'
      simp only [List.getElem_map]
      exact (hval i (by simpa using hi') (by simpa using hi)).1
  have hnd : (vals.map (·.1)).Nodup := by
    rw [hkeys]
    exact hdis.imp (fun {a b} h he => by rw [he] at h; omega)
  have hone : ∀ (k : Nat) (hk : k < ps.length), ∃ x, temporalValue (L.map (·.1)) vals ps[k] k = .ok x ∧
      (∀ p e, (p, e) ∈ L → Covers p ps[k] → Means pow (valueIn vars k) e.tree x) ∧
        ((∀ p e, (p, e) ∈ L → ¬ Covers p ps[k]) → x = some 0) := by
    intro k hk
    have hne := hw ps[k] (by simp)
    have hcp : ∀ p : Period, p.containsPeriod ps[k] = true ↔ Covers p ps[k] := by
      intro p; simp [Period.containsPeriod, Covers, hne]
    unfold temporalValue Periods.getPeriod
    cases hf : (L.map (·.1)).find? (fun p => p.containsPeriod ps[k]) with
    | none =>
      rw [List.find?_eq_none] at hf
      refine ⟨some 0, rfl, fun p e hpe hc => ?_, fun _ => rfl⟩
      exact absurd ((hcp p).mpr hc) (by simpa using hf p (List.mem_map.mpr ⟨_, hpe, rfl⟩))
    | some vp =>
      have hc := (hcp vp).mp (by simpa using List.find?_some hf)
      obtain ⟨i, hi, hvi⟩ := List.mem_iff_getElem.mp (List.mem_of_find?_eq_some hf)
      have hiL : i < L.length := by simpa using hi
      have hiv : i < vals.length := by omega
      obtain ⟨v1, v2, v3⟩ := hval i hiL hiv
      have hvp : (vals[i]).1 = vp := by rw [v1, ← hvi]; simp
      have hlk := lookup_nodup vals hnd i hiv
      rw [hvp] at hlk
      simp only [hlk]
      rw [List.getElem?_eq_getElem (by omega : k < (vals[i]).2.length)]
      refine ⟨_, rfl, fun p e hpe hc' => ?_, fun h => ?_⟩
      · obtain ⟨j, hj, hje⟩ := List.mem_iff_getElem.mp hpe
        have hL : (L[i]).1 = vp := by rw [← v1, hvp]
        have hij : i = j := by
          have hpw := List.pairwise_iff_getElem.mp hdis
          unfold Covers at hc hc'
          rcases Nat.lt_trichotomy i j with h | h | h
          · have := hpw i j hi (by simpa using hj) h
            simp only [List.getElem_map, hje, hL] at this
            omega
          · exact h
          · have := hpw j i (by simpa using hj) hi h
            simp only [List.getElem_map, hje, hL] at this
            omega
        subst hij
        have := v3 k (by omega)
        rwa [hje] at this
      · exfalso
        exact h (L[i]).1 (L[i]).2 (by simp) (by rw [← v1, hvp]; exact hc)
  obtain ⟨vs, g1, g2, g3⟩ := mapM_ok (fun pi : Period × Nat => temporalValue (L.map (·.1)) vals pi.1 pi.2)
    ps.zipIdx (by
      intro x hx
      obtain ⟨k, hk, hkx⟩ := List.mem_iff_getElem.mp hx
      simp at hk
      obtain ⟨y, hy, -⟩ := hone k hk
      refine ⟨y, ?_⟩
      rw [← hkx]
      simpa using hy)
  refine ⟨vs, ?_, by simpa using g2, ?_⟩
  · rw [h1]; exact g1
  · intro k hk hk'
    have := g3 k (by simpa using hk) hk'
    simp only [List.getElem_zipIdx, Nat.zero_add] at this
    obtain ⟨x, hx, hx'⟩ := hone k hk
    rw [hx] at this
    obtain rfl := Except.ok.inj this
    exact hx'

/-! ## Property theorems -/

/-- A time-varying expression has one value per period: that of the definition in force in the period, zero where
none is. -/
theorem C20_in_force (pow : Fl → Fl → Fl) (m : VarMap) (hb : Built m) (own : Period) (ho : m.period = .ok own)
    (model : TModel Expr)
    (hm : ∀ pe ∈ model, pe.1.start < pe.1.stop ∧ Usable m.vars m.periods.length pe.2 ∧
      (Period.intersects pe.1 own = true → Aligned m own pe.1)) :
    ∃ vs, m.evaluateTemporal pow model = .ok vs ∧ vs.length = m.periods.length ∧
      ∀ (k : Nat) (hk : k < m.periods.length) (hk' : k < vs.length),
        ValueInForce pow m.vars k (inForce model m.periods[k]) vs[k] := by
  obtain ⟨vs, h1, h2, h3⟩ := fold_ok pow hb ho model hm (List.replicate m.periods.length (some 0)) (by simp)
  refine ⟨vs, h1, h2, fun k hk hk' => ?_⟩
  have := h3 k hk
  unfold ValueInForce
  cases hr : inForce model m.periods[k] with
  | some e =>
    rw [hr] at this
    obtain ⟨x, hx, hx'⟩ := this
    rw [List.getElem?_eq_getElem hk', Option.some.injEq] at hx
    rw [hx]; exact hx'
  | none =>
    rw [hr] at this
    simp only at this ⊢
    rw [List.getElem?_eq_getElem hk'] at this
    simpa [hk] using this

/-- A definition that starts or ends inside a period of the map is an error. -/
theorem C20_misaligned (pow : Fl → Fl → Fl) (m : VarMap) (hb : Built m) (own : Period) (ho : m.period = .ok own)
    (model : TModel Expr)
    (hm : ∀ pe ∈ model, pe.1.start < pe.1.stop ∧ Usable m.vars m.periods.length pe.2)
    (hbad : ∃ pe ∈ model, Period.intersects pe.1 own = true ∧ ¬ Aligned m own pe.1) :
    m.evaluateTemporal pow model = .error .programmingError := by
  unfold VarMap.evaluateTemporal
  have : ∀ result : List Fl, result.length = m.periods.length →
      model.foldlM (m.temporalStep pow) result = .error .programmingError := by
    induction model with
    | nil => obtain ⟨_, h, _⟩ := hbad; simp at h
    | cons pe rest ih =>
      intro result hr
      obtain ⟨p, e⟩ := pe
      obtain ⟨hp, hu⟩ := hm (p, e) (by simp)
      by_cases ha : Period.intersects p own = true → Aligned m own p
      · obtain ⟨result', h1, h2, -⟩ := step_ok pow hb ho hp e hu ha result hr
        simp only [List.foldlM_cons, h1, Bind.bind, Except.bind]
        refine ih (fun pe h => hm pe (by simp [h])) ?_ result' h2
        obtain ⟨pe, h1, h2, h3⟩ := hbad
        rcases List.mem_cons.mp h1 with rfl | h1
        · exact absurd (ha h2) h3
        · exact ⟨pe, h1, h2, h3⟩
      · rw [Classical.not_imp] at ha
        have := (indices_ok hb ho hp ha.1).2 ha.2
        simp only [List.foldlM_cons, VarMap.temporalStep, ho, ha.1, this, Bind.bind, Except.bind, if_true]
  exact this _ (by simp)

/-- A user variable given by date has in each period the value of the definition in force there, zero if none is
in force during the whole period. Requires the dates to be listed in increasing order. -/
theorem C20_variable_partial (pow : Fl → Fl → Fl) (id : String) (es : List (Int × Expr)) (vars : Vars)
    (ps : Periods) (hw : ∀ q ∈ ps, q.start < q.stop ∧ q.stop ≤ dtMax)
    (hu : ∀ de ∈ es, Usable vars ps.length de.2) (hinc : (es.map (·.1)).Pairwise (· < ·)) :
    ∃ vs, Processor.process pow ⟨id, .temporal es⟩ vars ps = .ok vs ∧ vs.length = ps.length ∧
      ∀ (k : Nat) (hk : k < ps.length) (hk' : k < vs.length),
        (∀ e, InForceFrom es ps[k] e → Means pow (valueIn vars k) e.tree vs[k]) ∧
        ((∀ e, ¬ InForceFrom es ps[k] e) → vs[k] = some 0) := by
  obtain ⟨vs, h1, h2, h3⟩ := temporal_values pow vars ps (fun q hq => (hw q hq).1) (datesToPeriods es)
    (fun pe hpe => hu _ (datesToPeriods_mem_start hpe))
    (by rw [List.pairwise_map]; exact datesToPeriods_pairwise hinc)
  refine ⟨vs, ?_, h2, fun k hk hk' => ⟨fun e he => ?_, fun h => ?_⟩⟩
  · unfold Processor.process
    simp only [sort_sorted _ hinc, create_dates, zip_dates]
    exact h1
  · obtain ⟨p, hp, hc⟩ := (covering_date es hinc ps[k] e (hw ps[k] (by simp)).2).mpr he
    exact (h3 k hk hk').1 p e hp hc
  · refine (h3 k hk hk').2 (fun p e hp hc => h e ?_)
    exact (covering_date es hinc ps[k] e (hw ps[k] (by simp)).2).mp ⟨p, hp, hc⟩

/-- Finding: with the dates listed in decreasing order the definitions are exchanged: in a period between the two
dates the value is that of the definition that only starts later. -/
theorem C20_variable_unsorted (pow : Fl → Fl → Fl) (id : String) (d1 d2 : Int) (e1 e2 : Expr) (vars : Vars)
    (ps : Periods) (hd : d1 < d2) (hw : ∀ q ∈ ps, q.start < q.stop ∧ q.stop ≤ dtMax)
    (hu1 : Usable vars ps.length e1) (hu2 : Usable vars ps.length e2) (k : Nat) (hk : k < ps.length)
    (hq : d1 ≤ (ps[k]).start ∧ (ps[k]).stop ≤ d2) :
    InForceFrom [(d2, e2), (d1, e1)] ps[k] e1 ∧
    ∃ vs x, Processor.process pow ⟨id, .temporal [(d2, e2), (d1, e1)]⟩ vars ps = .ok vs ∧ vs[k]? = some x ∧
      Means pow (valueIn vars k) e2.tree x := by
  constructor
  · refine ⟨d1, by simp, hq.1, fun d' hd' hlt => ?_⟩
    simp at hd'
    rcases hd' with rfl | rfl
    · exact hq.2
    · omega
  · have hsort : [d2, d1].mergeSort (fun a b => decide (a ≤ b)) = [d1, d2] := by
      have hp : ([d2, d1].mergeSort (fun a b => decide (a ≤ b))).Perm [d1, d2] :=
        (List.mergeSort_perm _ _).trans (List.Perm.swap _ _ _)
      have hs : ([d2, d1].mergeSort (fun a b => decide (a ≤ b))).Pairwise (fun a b => decide (a ≤ b) = true) :=
        List.pairwise_mergeSort (fun a b c h1 h2 => by simp at *; omega) (fun a b => by simp; omega) _
      refine hp.eq_of_pairwise ?_ hs ?_
      · intro a b _ _ h1 h2; simp at h1 h2; omega
      · simp; omega
    obtain ⟨vs, h1, h2, h3⟩ := temporal_values pow vars ps (fun q hq => (hw q hq).1)
      [(⟨d1, d2⟩, e2), (⟨d2, dtMax⟩, e1)] (by
        intro pe hpe
        simp at hpe
        rcases hpe with rfl | rfl
        · exact hu2
        · exact hu1) (by simp [hd])
    have hk' : k < vs.length := by omega
    refine ⟨vs, vs[k], ?_, by simp [hk'], (h3 k hk hk').1 ⟨d1, d2⟩ e2 (by simp) hq⟩
    unfold Processor.process
    simp only [List.map_cons, List.map_nil, hsort]
    exact h1

/-! ## Non-vacuity -/

/-- `x + 1`. -/
def exprA : Expr := ⟨[.ref "x", .op .add, .num 1], .node (.op .add) (.leaf (.ref "x")) (.leaf (.num 1))⟩
/-- `5`. -/
def exprB : Expr := ⟨[.num 5], .leaf (.num 5)⟩

example : Usable sampleMap.vars 3 exprA := by
  refine ⟨by decide +kernel, by intro s; simp [exprA], ?_⟩
  intro s hs
  simp [exprA] at hs
  subst hs
  exact ⟨_, rfl, rfl⟩

example : sampleMap.evaluateTemporal (fun _ _ => none) [(⟨-50, 10⟩, exprA), (⟨20, 100⟩, exprB)] =
    .ok [some 2, some 0, some 5] := by decide +kernel

example : inForce [(⟨-50, 10⟩, exprA), (⟨20, 100⟩, exprB)] ⟨20, 30⟩ = some exprB := by decide +kernel

example : InForceFrom [(0, exprA), (20, exprB)] ⟨10, 20⟩ exprA := ⟨0, by simp, by simp, by simp⟩

end Verif.C20
