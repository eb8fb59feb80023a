import Verif.Model.Slices
import Verif.Props.C04
import Verif.Props.C15

/-! # C88 — Dates in a model split the run exactly: each model is given the periods it is in force in -/

namespace Verif.C88
open Verif.Time Verif.InputSeries Verif.Variables Verif.Slices Verif.C04 Verif.C05 Verif.C15

/-- Specification: the date is a key of some mapping, at any depth of the file. -/
inductive Written : Node → DateTime → Prop
  | key {kvs : List (YKey × Node)} {d : DateTime} {n : Node} : (YKey.date d, n) ∈ kvs → Written (.dict kvs) d
  | inDict {kvs : List (YKey × Node)} {d : DateTime} {k : YKey} {n : Node} : (k, n) ∈ kvs → Written n d →
      Written (.dict kvs) d
  | inList {xs : List Node} {d : DateTime} {n : Node} : n ∈ xs → Written n d → Written (.list xs) d

theorem mem_noteKey (k : YKey) (out : List DateTime) (d : DateTime) :
    d ∈ noteKey k out ↔ d ∈ out ∨ k = .date d := by
  cases k with
  | other s => simp [noteKey]
  | date e =>
    unfold noteKey
    simp only [YKey.date.injEq]
    by_cases h : e ∈ out
    · rw [if_pos h]
      constructor
      · exact .inl
      · rintro (h' | rfl)
        · exact h'
        · exact h
    · rw [if_neg h]
      simp only [List.mem_append, List.mem_singleton]
      constructor <;> rintro (h' | h') <;> simp [h']

mutual

theorem mem_find (d : DateTime) : (n : Node) → (d ∈ findDateKeys n ↔ Written n d)
  | .scalar => by
    simp only [findDateKeys, List.not_mem_nil, false_iff]
    intro h; cases h
  | .list xs => by
    rw [findDateKeys, mem_list d xs []]
    simp only [List.not_mem_nil, false_or]
    constructor
    · rintro ⟨n, hn, h⟩; exact .inList hn h
    · intro h; cases h with | inList hn h => exact ⟨_, hn, h⟩
  | .dict kvs => by
    rw [findDateKeys, mem_dict d kvs []]
    simp only [List.not_mem_nil, false_or]
    constructor
    · rintro ⟨⟨k, n⟩, hn, h | h⟩
      · simp only at h; subst h; exact .key hn
      · exact .inDict hn h
    · intro h
      cases h with
      | key h => exact ⟨_, h, .inl rfl⟩
      | inDict hn h => exact ⟨_, hn, .inr h⟩

theorem mem_list (d : DateTime) : (xs : List Node) → (out : List DateTime) →
    (d ∈ findInList xs out ↔ d ∈ out ∨ ∃ n ∈ xs, Written n d)
  | [], out => by simp [findInList]
  | n :: rest, out => by
    rw [findInList, mem_list d rest, List.mem_append, mem_find d n]
    simp only [List.mem_cons, exists_eq_or_imp, or_assoc]

theorem mem_dict (d : DateTime) : (kvs : List (YKey × Node)) → (out : List DateTime) →
    (d ∈ findInDict kvs out ↔ d ∈ out ∨ ∃ kn ∈ kvs, kn.1 = .date d ∨ Written kn.2 d)
  | [], out => by simp [findInDict]
  | (k, n) :: rest, out => by
    rw [findInDict, mem_dict d rest, List.mem_append, mem_find d n, mem_noteKey]
    simp only [List.mem_cons, exists_eq_or_imp, or_assoc]

end

/-- **C88, dates of the file.** The additional dates of a run are the dates that are keys of mappings of the file, at
any depth, and no others. -/
theorem C88_dates_found (file : Node) (d : DateTime) : d ∈ findDateKeys file ↔ Written file d := mem_find d file

/-! ## Cutting a run -/

theorem pairs_take (t : List DateTime) (j : Nat) : Periods.pairs (t.take (j + 1)) = (Periods.pairs t).take j := by
  induction t generalizing j with
  | nil => simp [Periods.pairs]
  | cons a t ih =>
    cases t with
    | nil => simp [Periods.pairs]
    | cons b t =>
      cases j with
      | zero => simp [Periods.pairs]
      | succ j =>
        have := ih j
        simp only [List.take_succ_cons, Periods.pairs] at this ⊢
        rw [this]

theorem pairs_drop (t : List DateTime) (i : Nat) : Periods.pairs (t.drop i) = (Periods.pairs t).drop i := by
  induction t generalizing i with
  | nil => simp [Periods.pairs]
  | cons a t ih =>
    cases i with
    | zero => rfl
    | succ i =>
      cases t with
      | nil => simp [Periods.pairs]
      | cons b t =>
        have := ih i
        simp only [List.drop_succ_cons, Periods.pairs] at this ⊢
        rw [this]

theorem createPeriods_pairs (t : List DateTime) : Periods.createPeriods t false false = Periods.pairs t := by
  cases t <;> simp [Periods.createPeriods, Periods.pairs]

theorem pairs_allDates {ps : List Period} (hwf : WF ps) {l : Period} (hl : ps.getLast? = some l) :
    Periods.pairs (ps.map (·.start) ++ [l.stop]) = ps := by
  induction ps with
  | nil => simp at hl
  | cons p ps ih =>
    cases ps with
    | nil => simp at hl; subst hl; rfl
    | cons q ps =>
      rw [List.getLast?_cons_cons] at hl
      have := ih hwf.2.2 hl
      simp only [List.map_cons, List.cons_append, Periods.pairs] at this ⊢
      rw [this, ← hwf.2.1]

theorem zip_slice {α β : Type} (P : α → Bool) (xs : List α) (ys : List β) (h : ys.length = xs.length) (i j : Nat)
    (hP : ∀ k (hk : k < xs.length), P xs[k] = true ↔ i ≤ k ∧ k < j) :
    ((xs.zip ys).filter (fun xy => P xy.1)).map (·.2) = Periods.slice ys i j := by
  rw [ListAux.filter_eq_slice (fun xy => P xy.1) (xs.zip ys) i j (fun k hk => by
    simp only [List.length_zip] at hk
    simp only [List.getElem_zip]
    exact hP k (by omega))]
  rw [List.map_drop, List.map_take, List.map_snd_zip (by omega), Periods.slice]

/-- What a part of a run should be: the periods of the run that overlap the given period, all of them inside it, with
the values of these periods. -/
def IsPart (m : VarMap) (p : Period) (sub : VarMap) : Prop :=
  sub.periods = m.periods.filter (fun q => decide (Overlap p q)) ∧ sub.periods ≠ [] ∧
  (∀ q ∈ sub.periods, p.start ≤ q.start ∧ q.stop ≤ p.stop) ∧
  ((∀ kv ∈ m.vars, kv.2.length = m.periods.length) →
    sub.vars = m.vars.map (fun kv =>
      (kv.1, ((m.periods.zip kv.2).filter (fun qv => decide (Overlap p qv.1))).map (·.2))))

theorem make_ok {ps : List Period} {l : Period} (hl : ps.getLast? = some l) (vars : Expression.Vars) :
    VarMap.make ps vars = .ok ⟨ps, ps.map (·.start) ++ [l.stop], vars⟩ := by
  simp [VarMap.make, allDates_eq hl, bind, Except.bind, pure, Except.pure]

theorem make_nil (vars : Expression.Vars) : VarMap.make [] vars = .error .indexError := rfl

theorem getPeriodIndices_ok {p : Period} {ps : List Period} {i j : Nat} (h : p.getPeriodIndices ps = .ok (i, j)) :
    ∃ f l, ps.head? = some f ∧ ps.getLast? = some l ∧
      (∃ hi : i < (ps.map (·.start)).length, (ps.map (·.start))[i] = max p.start f.start) ∧
      (∃ hj : j < (ps.map (·.start) ++ [l.stop]).length,
        (ps.map (·.start) ++ [l.stop])[j] = min p.stop l.stop) := by
  unfold Period.getPeriodIndices at h
  cases hf : ps.head? with
  | none => rw [hf] at h; cases h
  | some f =>
    cases hl : ps.getLast? with
    | none => rw [hf, hl] at h; cases h
    | some l =>
      rw [hf, hl] at h
      simp only [Periods.pyIndex, Periods.startDates, allDates_eq hl] at h
      cases hi : (ps.map (·.start)).idxOf? (max p.start f.start) with
      | none => rw [hi] at h; cases h
      | some i' =>
        rw [hi] at h
        simp only at h
        cases hj : (ps.map (·.start) ++ [l.stop]).idxOf? (min p.stop l.stop) with
        | none => rw [hj] at h; cases h
        | some j' =>
          rw [hj] at h
          cases Except.ok.inj h
          exact ⟨f, l, rfl, rfl, ListAux.idxOf?_some hi, ListAux.idxOf?_some hj⟩

/-- One successful cut is right. -/
theorem part_right {ps : List Period} (hwf : WF ps) {vars : Expression.Vars} {m sub : VarMap}
    (hm : VarMap.make ps vars = .ok m) {p : Period} {i j : Nat}
    (hij : p.getPeriodIndices m.periods = .ok (i, j)) (hs : m.getSubset i j = .ok sub) : IsPart m p sub := by
  cases hl : ps.getLast? with
  | none =>
    have : ps = [] := by simpa using hl
    subst this; cases hm
  | some l =>
    rw [make_ok hl] at hm
    cases Except.ok.inj hm
    simp only at hij
    obtain ⟨f, l', hf, hl', ⟨hi, hi'⟩, ⟨hj, hj'⟩⟩ := getPeriodIndices_ok hij
    rw [hl] at hl'; cases Option.some.inj hl'
    have key := overlap_at_index (p := p) hwf hf hl hi hi' hj hj'
    have hP : ∀ k (hk : k < ps.length), decide (Overlap p ps[k]) = true ↔ i ≤ k ∧ k < j := by
      intro k hk; rw [decide_eq_true_eq]; exact key k hk
    have hfil := ListAux.filter_eq_slice (fun q => decide (Overlap p q)) ps i j hP
    unfold VarMap.getSubset at hs
    simp only [createPeriods_pairs] at hs
    have e : Periods.pairs (Periods.slice (ps.map (·.start) ++ [l.stop]) i (j + 1)) =
        ps.filter (fun q => decide (Overlap p q)) := by
      unfold Periods.slice
      rw [pairs_drop, pairs_take, pairs_allDates hwf hl, hfil]
    rw [e] at hs
    cases hsl : (ps.filter (fun q => decide (Overlap p q))).getLast? with
    | none =>
      have : ps.filter (fun q => decide (Overlap p q)) = [] := by
        by_contra h
        rw [List.getLast?_eq_some_getLast h] at hsl
        cases hsl
      rw [this] at hs; cases hs
    | some sl =>
      rw [make_ok hsl] at hs
      cases Except.ok.inj hs
      refine ⟨rfl, ?_, ?_, ?_⟩
      · simp only
        intro h; rw [h] at hsl; cases hsl
      · simp only
        intro q hq
        obtain ⟨hq1, hq2⟩ := List.mem_filter.mp hq
        rw [decide_eq_true_eq] at hq2
        have hstart : ∃ q ∈ ps, q.start = max p.start f.start := by
          simp only [List.getElem_map] at hi'
          exact ⟨_, List.getElem_mem _, hi'⟩
        have hend : Boundary ps (min p.stop l.stop) := by
          have hm : min p.stop l.stop ∈ ps.map (·.start) ++ [l.stop] := by
            rw [← hj']; exact List.getElem_mem _
          simp only [List.mem_append, List.mem_map, List.mem_singleton] at hm
          rcases hm with ⟨q, hq, hq'⟩ | hm
          · exact .inl ⟨q, hq, hq'⟩
          · exact .inr ⟨l, hl, hm.symm⟩
        have hint : Period.intersects ⟨f.start, l.stop⟩ p = true := by
          have h1 := wf_first hwf hf q hq1
          have h2 := wf_last hwf hl q hq1
          rw [overlap_iff] at hq2
          simp only [Period.intersects, Period.containsDate, Bool.or_eq_true, Bool.and_eq_true, decide_eq_true_eq]
          omega
        exact (C05_selects_overlapping p ps f l hwf hf hl hstart hend hint).2 q hq1 hq2
      · simp only
        intro hlen
        refine List.map_congr_left ?_
        intro kv hkv
        rw [zip_slice (fun q => decide (Overlap p q)) ps kv.2 (hlen kv hkv) i j hP]

/-- **C88, never a wrong part.** Whatever the periods of the models are: if the run is cut at all, every model keeps
its period, in the given order, and is given exactly the periods of the run overlapping it, which lie inside it, with
the values of exactly these periods; no model is given nothing. -/
theorem C88_parts_are_right {α : Type} (ps : Periods) (vars : Expression.Vars) (m : VarMap) (hwf : WF ps)
    (hm : VarMap.make ps vars = .ok m) (ms : List (Period × α)) (rs : List (Period × α × VarMap))
    (h : cut m ms = .ok rs) :
    rs.map (fun r => (r.1, r.2.1)) = ms ∧ ∀ r ∈ rs, IsPart m r.1 r.2.2 := by
  induction ms generalizing rs with
  | nil => cases Except.ok.inj h; simp
  | cons pa ms ih =>
    obtain ⟨p, a⟩ := pa
    unfold cut at h
    cases hij : p.getPeriodIndices m.periods with
    | error e => rw [hij] at h; cases h
    | ok ij =>
      obtain ⟨i, j⟩ := ij
      rw [hij] at h
      simp only at h
      cases hs : m.getSubset i j with
      | error e => rw [hs] at h; cases h
      | ok sub =>
        rw [hs] at h
        simp only at h
        cases hc : cut m ms with
        | error e => rw [hc] at h; cases h
        | ok r =>
          rw [hc] at h
          cases Except.ok.inj h
          obtain ⟨h1, h2⟩ := ih r hc
          refine ⟨by simp [h1], ?_⟩
          intro x hx
          rcases List.mem_cons.mp hx with rfl | hx
          · exact part_right hwf hm hij hs
          · exact h2 x hx

theorem getPeriodIndices_error {p : Period} {ps : List Period} {e : Err} (h : p.getPeriodIndices ps = .error e) :
    e = .programmingError := by
  unfold Period.getPeriodIndices at h
  repeat' split at h
  all_goals first | exact (Except.error.inj h).symm | cases h

theorem getSubset_error {m : VarMap} {i j : Nat} {e : Err} (h : m.getSubset i j = .error e) :
    e = .indexError := by
  unfold VarMap.getSubset at h
  generalize Periods.createPeriods (Periods.slice m.timeVector i (j + 1)) false false = ps at h
  cases hl : ps.getLast? with
  | some l => rw [make_ok hl] at h; cases h
  | none =>
    have : ps = [] := by simpa using hl
    subst this; rw [make_nil] at h
    exact (Except.error.inj h).symm

theorem cut_error {α : Type} {m : VarMap} {ms : List (Period × α)} {e : Err} (h : cut m ms = .error e) :
    e = .programmingError ∨ e = .indexError := by
  induction ms with
  | nil => cases h
  | cons pa ms ih =>
    obtain ⟨p, a⟩ := pa
    unfold cut at h
    cases hij : p.getPeriodIndices m.periods with
    | error e' => rw [hij] at h; cases Except.error.inj h; exact .inl (getPeriodIndices_error hij)
    | ok ij =>
      obtain ⟨i, j⟩ := ij
      rw [hij] at h
      simp only at h
      cases hs : m.getSubset i j with
      | error e' => rw [hs] at h; cases Except.error.inj h; exact .inr (getSubset_error hs)
      | ok sub =>
        rw [hs] at h
        simp only at h
        cases hc : cut m ms with
        | error e' => rw [hc] at h; cases Except.error.inj h; exact ih hc
        | ok r => rw [hc] at h; cases h

/-- A period whose clipped ends are dates of the run and which overlaps the run can be cut out. -/
theorem cut_one {ps : List Period} (hwf : WF ps) {vars : Expression.Vars} {m : VarMap}
    (hm : VarMap.make ps vars = .ok m) {p f l : Period} (hf : ps.head? = some f) (hl : ps.getLast? = some l)
    (hstart : ∃ q ∈ ps, q.start = max p.start f.start) (hend : Boundary ps (min p.stop l.stop))
    (hov : ∃ q ∈ ps, Overlap p q) :
    ∃ i j sub, p.getPeriodIndices m.periods = .ok (i, j) ∧ m.getSubset i j = .ok sub := by
  rw [make_ok hl] at hm
  cases Except.ok.inj hm
  have ⟨i, hi⟩ : ∃ i, (ps.map (·.start)).idxOf? (max p.start f.start) = some i := by
    apply ListAux.idxOf?_isSome
    obtain ⟨q, hq, hq'⟩ := hstart
    simp only [List.mem_map]; exact ⟨q, hq, hq'⟩
  have ⟨j, hj⟩ : ∃ j, (ps.map (·.start) ++ [l.stop]).idxOf? (min p.stop l.stop) = some j := by
    apply ListAux.idxOf?_isSome
    rcases hend with ⟨q, hq, hq'⟩ | ⟨q, hq, hq'⟩
    · simp only [List.mem_append, List.mem_map]; exact .inl ⟨q, hq, hq'⟩
    · rw [hl] at hq; simp at hq; subst hq
      simp [← hq']
  have hij : p.getPeriodIndices ps = .ok (i, j) := by
    unfold Period.getPeriodIndices
    rw [hf, hl]
    simp only [Periods.pyIndex, Periods.startDates, hi, allDates_eq hl, hj]
  obtain ⟨hi1, hi2⟩ := ListAux.idxOf?_some hi
  obtain ⟨hj1, hj2⟩ := ListAux.idxOf?_some hj
  have key := overlap_at_index (p := p) hwf hf hl hi1 hi2 hj1 hj2
  have hfil := ListAux.filter_eq_slice (fun q => decide (Overlap p q)) ps i j
    (fun k hk => by rw [decide_eq_true_eq]; exact key k hk)
  have e : Periods.pairs (Periods.slice (ps.map (·.start) ++ [l.stop]) i (j + 1)) =
      ps.filter (fun q => decide (Overlap p q)) := by
    unfold Periods.slice
    rw [pairs_drop, pairs_take, pairs_allDates hwf hl, hfil]
  obtain ⟨q, hq, ho⟩ := hov
  have hne : ps.filter (fun q => decide (Overlap p q)) ≠ [] := by
    intro h
    have : q ∈ ps.filter (fun q => decide (Overlap p q)) := List.mem_filter.mpr ⟨hq, by simpa using ho⟩
    rw [h] at this; simp at this
  have hsub : VarMap.getSubset ⟨ps, ps.map (·.start) ++ [l.stop], vars⟩ i j =
      VarMap.make (ps.filter (fun q => decide (Overlap p q)))
        (vars.map (fun kv => (kv.1, Periods.slice kv.2 i j))) := by
    unfold VarMap.getSubset
    simp only [createPeriods_pairs]
    rw [e]
  exact ⟨i, j, _, hij, hsub.trans (make_ok (List.getLast?_eq_some_getLast hne) _)⟩

theorem cut_ok {α : Type} {m : VarMap} {ms : List (Period × α)}
    (h : ∀ pm ∈ ms, ∃ i j sub, pm.1.getPeriodIndices m.periods = .ok (i, j) ∧ m.getSubset i j = .ok sub) :
    ∃ rs, cut m ms = .ok rs := by
  induction ms with
  | nil => exact ⟨[], rfl⟩
  | cons pa ms ih =>
    obtain ⟨p, a⟩ := pa
    obtain ⟨i, j, sub, h1, h2⟩ := h (p, a) (by simp)
    obtain ⟨rs, hrs⟩ := ih (fun x hx => h x (List.mem_cons_of_mem _ hx))
    simp only at h1
    exact ⟨_, by unfold cut; rw [h1]; simp only; rw [h2]; simp only; rw [hrs]⟩

/-! ## Models keyed by dates -/

theorem datesToPeriods_stop {α : Type} {kvs : List (Int × α)} {pm : Period × α}
    (h : pm ∈ datesToPeriods kvs) : pm.1.stop = dtMax ∨ ∃ kv ∈ kvs.tail, kv.1 = pm.1.stop := by
  induction kvs with
  | nil => simp [datesToPeriods] at h
  | cons a t ih =>
    obtain ⟨ka, va⟩ := a
    cases t with
    | nil => simp [datesToPeriods] at h; subst h; exact .inl rfl
    | cons b t =>
      obtain ⟨kb, vb⟩ := b
      simp only [datesToPeriods, List.mem_cons] at h
      rcases h with rfl | h
      · exact .inr ⟨(kb, vb), by simp, rfl⟩
      · rcases ih h with h | ⟨kv, hkv, e⟩
        · exact .inl h
        · exact .inr ⟨kv, List.mem_cons_of_mem _ hkv, e⟩

/-- The key before a later key defines a period that ends at the later key. -/
theorem datesToPeriods_before {α : Type} {kvs : List (Int × α)} {kv : Int × α} (h : kv ∈ kvs.tail) :
    ∃ pm ∈ datesToPeriods kvs, pm.1.stop = kv.1 := by
  induction kvs with
  | nil => simp at h
  | cons a t ih =>
    obtain ⟨ka, va⟩ := a
    cases t with
    | nil => simp at h
    | cons b t =>
      obtain ⟨kb, vb⟩ := b
      simp only [List.tail_cons, List.mem_cons] at h
      rcases h with rfl | h
      · exact ⟨(⟨ka, kb⟩, va), by simp [datesToPeriods], rfl⟩
      · obtain ⟨pm, hpm, e⟩ := ih h
        exact ⟨pm, by simp only [datesToPeriods]; exact List.mem_cons_of_mem _ hpm, e⟩

theorem define_dates {α : Type} (kvs : List (Int × α)) (target : Period)
    (ht : target.start < target.stop) (hne : kvs ≠ []) (hasc : (kvs.map (·.1)).Pairwise (· < ·))
    (hmax : ∀ kv ∈ kvs, kv.1 < dtMax) :
    defineTimeModelForPeriod (.dict (kvs.map (fun kv => (Key.date kv.1, kv.2)))) target =
      .ok (some ((datesToPeriods kvs).filterMap (clip target))) := by
  have hd := datesToPeriods_defs hasc hmax
  unfold defineTimeModelForPeriod defaultTemporalModel
  have h1 : (kvs.map (fun kv => (Key.date kv.1, kv.2))).any (fun kv => kv.1.isDate) = true := by
    cases kvs with
    | nil => exact absurd rfl hne
    | cons a l => simp [Key.isDate]
  have h2 : (kvs.map (fun kv => (Key.date kv.1, kv.2))).all (fun kv => kv.1.isDate) = true := by
    simp [Key.isDate]
  simp only [h1, h2, if_true, dateKeys_map_date]
  rw [foldl_clip target ht _ [] hd (by simp)]
  simp

/-- The dates of the run, in terms of the periods of the run. -/
theorem run_dates (file : Node) (tv : List DateTime) (start? : Option DateTime) (stop s : DateTime)
    (hs : StartsAt tv start? s) (h : s < stop) :
    ∃ ps f l, globalPeriods file tv start? stop = .ok ps ∧ WF ps ∧ ps.head? = some f ∧ f.start = s ∧
      ps.getLast? = some l ∧ l.stop = stop ∧
      ∀ d, (∃ q ∈ ps, q.start = d) ↔ (d ∈ tv ∨ Written file d ∨ d = s) ∧ s ≤ d ∧ d < stop := by
  obtain ⟨r, hr, hp, hh, hl, hmem⟩ := C15_time_vector tv (findDateKeys file) stop start? s hs h
  have hg : globalPeriods file tv start? stop = .ok (Periods.pairs r) := by
    unfold globalPeriods; rw [hr]; simp only [createPeriods_pairs]
  cases r with
  | nil => simp at hh
  | cons a r =>
    cases r with
    | nil => simp at hh hl; omega
    | cons b r =>
      obtain ⟨e1, e2⟩ := pairs_ends a b r
      have hne : Periods.pairs (a :: b :: r) ≠ [] := by simp [Periods.pairs]
      have hlast : (Periods.pairs (a :: b :: r)).getLast? = some ((Periods.pairs (a :: b :: r)).getLast hne) :=
        List.getLast?_eq_some_getLast hne
      have hls : ((Periods.pairs (a :: b :: r)).getLast hne).stop = stop := by
        rw [hlast] at e2
        rw [List.getLast?_cons_cons] at hl
        rw [hl] at e2
        simpa using e2
      have hwf := pairs_wf _ hp
      refine ⟨_, _, _, hg, hwf, List.head?_eq_some_head hne, ?_, hlast, hls, ?_⟩
      · simp at hh; subst hh; simp [Periods.pairs]
      · have hall : ∀ (t : List DateTime), t ≠ [] → ∀ e, t.getLast? = some e →
            (Periods.pairs t).map (·.start) ++ [e] = t := by
          intro t
          induction t with
          | nil => intro h; exact absurd rfl h
          | cons x t ih =>
            intro _ e he
            cases t with
            | nil => simp at he; subst he; rfl
            | cons y t =>
              rw [List.getLast?_cons_cons] at he
              simp only [Periods.pairs, List.map_cons, List.cons_append]
              rw [ih (by simp) e he]
        have hall' := hall _ (by simp) stop hl
        intro d
        have hm := hmem d
        rw [C88_dates_found] at hm
        constructor
        · rintro ⟨q, hq, rfl⟩
          have hin : q.start ∈ a :: b :: r := by
            rw [← hall']; exact List.mem_append_left _ (List.mem_map_of_mem hq)
          have hlt : q.start < stop := by
            have := wf_nonempty hwf q hq
            have := wf_last hwf hlast q hq
            omega
          obtain ⟨h1, h2, h3⟩ := hm.mp hin
          refine ⟨?_, h2, hlt⟩
          rcases h1 with h1 | h1 | h1 | h1
          · exact .inl h1
          · exact .inr (.inl h1)
          · exact .inr (.inr h1)
          · omega
        · rintro ⟨h1, h2, h3⟩
          have hin : d ∈ a :: b :: r := hm.mpr ⟨by tauto, h2, by omega⟩
          rw [← hall'] at hin
          rcases List.mem_append.mp hin with hin | hin
          · obtain ⟨q, hq, e⟩ := List.mem_map.mp hin
            exact ⟨q, hq, e⟩
          · simp at hin; omega

/-- Parts that follow each other, put after each other, are the periods overlapping any of them. -/
theorem parts_concat {α : Type} {ps : List Period} (hwf : WF ps) (rs : List (Period × α × VarMap))
    (hs : rs.Pairwise (fun a b => a.1.stop ≤ b.1.start))
    (hp : ∀ r ∈ rs, r.2.2.periods = ps.filter (fun q => decide (Overlap r.1 q)) ∧
      ∀ q ∈ r.2.2.periods, r.1.start ≤ q.start ∧ q.stop ≤ r.1.stop) :
    rs.flatMap (fun r => r.2.2.periods) = ps.filter (fun q => decide (∃ r ∈ rs, Overlap r.1 q)) := by
  have hsort : ps.Pairwise (fun p q => p.start < q.start) := by
    refine (wf_pairwise hwf).imp_of_mem ?_
    intro p q hp hq h
    have := wf_nonempty hwf p hp
    omega
  have hpw : (rs.flatMap (fun r => r.2.2.periods)).Pairwise (fun p q => p.start < q.start) := by
    rw [List.pairwise_flatMap]
    refine ⟨fun r hr => by rw [(hp r hr).1]; exact hsort.filter _, ?_⟩
    refine hs.imp_of_mem ?_
    intro a b ha hb hab x hx y hy
    have h1 := (hp a ha).2 x hx
    have h2 := (hp b hb).2 y hy
    have h3 : x.start < x.stop := wf_nonempty hwf x (by
      rw [(hp a ha).1] at hx; exact (List.mem_filter.mp hx).1)
    omega
  have hpw' := hsort.filter (fun q => decide (∃ r ∈ rs, Overlap r.1 q))
  have nd : ∀ {l : List Period}, l.Pairwise (fun p q => p.start < q.start) → l.Nodup := by
    intro l hl
    exact hl.imp (fun h e => by subst e; omega)
  refine List.Perm.eq_of_pairwise (le := fun p q => p.start < q.start) ?_ hpw hpw' ?_
  · intro a b _ _ h1 h2; omega
  · rw [List.perm_ext_iff_of_nodup (nd hpw) (nd hpw')]
    intro q
    simp only [List.mem_flatMap, List.mem_filter, decide_eq_true_eq]
    constructor
    · rintro ⟨r, hr, hq⟩
      rw [(hp r hr).1] at hq
      obtain ⟨h1, h2⟩ := List.mem_filter.mp hq
      exact ⟨h1, r, hr, by simpa using h2⟩
    · rintro ⟨h1, r, hr, h2⟩
      exact ⟨r, hr, by rw [(hp r hr).1]; exact List.mem_filter.mpr ⟨h1, by simpa using h2⟩⟩

/-- Among entries with a key not after `t` there is one with the latest such key. -/
theorem latest {α : Type} (xs : List (Int × α)) (t : Int) (h : ∃ kv ∈ xs, kv.1 ≤ t) :
    ∃ kv ∈ xs, kv.1 ≤ t ∧ ∀ kv' ∈ xs, kv'.1 ≤ t → kv'.1 ≤ kv.1 := by
  induction xs with
  | nil => simp at h
  | cons x xs ih =>
    obtain ⟨kv, hkv, hle⟩ := h
    by_cases c : ∃ kv ∈ xs, kv.1 ≤ t
    · obtain ⟨y, hy, hy1, hy2⟩ := ih c
      by_cases c' : x.1 ≤ t ∧ y.1 < x.1
      · refine ⟨x, by simp, c'.1, ?_⟩
        intro z hz hz'
        rcases List.mem_cons.mp hz with rfl | hz
        · omega
        · have := hy2 z hz hz'; omega
      · refine ⟨y, List.mem_cons_of_mem _ hy, hy1, ?_⟩
        intro z hz hz'
        rcases List.mem_cons.mp hz with rfl | hz
        · omega
        · exact hy2 z hz hz'
    · refine ⟨x, by simp, ?_, ?_⟩
      · rcases List.mem_cons.mp hkv with rfl | hkv
        · exact hle
        · exact absurd ⟨kv, hkv, hle⟩ c
      · intro z hz hz'
        rcases List.mem_cons.mp hz with rfl | hz
        · omega
        · exact absurd ⟨z, hz, hz'⟩ c

/-- **C88, models keyed by dates.** A model with ascending dates, all of them keys somewhere in the file, none of its
later dates in the span between the start of the target period and the first date of the run (there is no such span
when START is given): the run is cut successfully. The parts put after each other are the periods of the run from the
first date of the model on: none is lost, none is given twice. Each part holds the periods and values inside the period
of its model, and throughout each of these periods the model in force is the given one. -/
theorem C88_dated_models {α : Type} (file : Node) (tv : List DateTime) (start? : Option DateTime)
    (stop s : DateTime) (vars : Expression.Vars) (k0 : Int) (v0 : α) (rest : List (Int × α))
    (hs : StartsAt tv start? s) (h : s < stop) (hstop : stop ≤ dtMax)
    (hlo : start?.getD defaultStart ≤ s)
    (hasc : (((k0, v0) :: rest).map (·.1)).Pairwise (· < ·)) (hmax : ∀ kv ∈ (k0, v0) :: rest, kv.1 < dtMax)
    (hfile : ∀ kv ∈ (k0, v0) :: rest, Written file kv.1)
    (hbefore : ∀ kv ∈ rest, kv.1 ≤ start?.getD defaultStart ∨ s < kv.1) :
    ∃ ps m rs, globalPeriods file tv start? stop = .ok ps ∧ VarMap.make ps vars = .ok m ∧
      subsets m (.dict (((k0, v0) :: rest).map (fun kv => (Key.date kv.1, kv.2)))) (targetPeriod start? stop) =
        .ok rs ∧
      rs.flatMap (fun r => r.2.2.periods) = ps.filter (fun q => decide (k0 ≤ q.start)) ∧
      (∀ r ∈ rs, IsPart m r.1 r.2.2) ∧
      ∀ r ∈ rs, ∀ q ∈ r.2.2.periods, ∀ t, At q t → InForceDates ((k0, v0) :: rest) t r.2.1 := by
  obtain ⟨ps, f, l, hg, hwf, hf, hfs, hl, hls, hdates⟩ := run_dates file tv start? stop s hs h
  obtain ⟨m, hm⟩ : ∃ m, VarMap.make ps vars = .ok m := ⟨_, make_ok hl vars⟩
  have hmp : m.periods = ps := by rw [make_ok hl] at hm; cases Except.ok.inj hm; rfl
  set kvs := (k0, v0) :: rest with hkvs
  have hne : kvs ≠ [] := by simp [hkvs]
  have ht : (targetPeriod start? stop).start < (targetPeriod start? stop).stop := by
    simp only [targetPeriod]; omega
  have hd := datesToPeriods_defs hasc hmax
  have hdef := define_dates kvs (targetPeriod start? stop) ht hne hasc hmax
  have hcover : ∀ t, s ≤ t → t < stop → ∃ q ∈ ps, At q t := by
    intro t h1 h2
    rw [← hfs] at h1; rw [← hls] at h2
    clear hdates hg hm hmp hfs hls hdef ht hd h hs hlo
    induction ps generalizing f with
    | nil => simp at hf
    | cons p ps ih =>
      simp at hf; subst hf
      by_cases c : t < p.stop
      · exact ⟨p, by simp, h1, c⟩
      · cases ps with
        | nil => simp at hl; subst hl; omega
        | cons q ps =>
          rw [List.getLast?_cons_cons] at hl
          obtain ⟨x, hx, hx'⟩ := ih q (wf_tail hwf) rfl hl (by have := hwf.2.1; omega)
          exact ⟨x, List.mem_cons_of_mem _ hx, hx'⟩
  have hok : ∃ rs, cut m ((datesToPeriods kvs).filterMap (clip (targetPeriod start? stop))) = .ok rs := by
    apply cut_ok
    intro c hc
    obtain ⟨pm, hpm, hcl⟩ := List.mem_filterMap.mp hc
    have hb := clip_bounds hcl
    obtain ⟨-, hcn, -⟩ := clip_at (hd.1 pm hpm) ht hcl
    have hstartkey := datesToPeriods_mem_start hpm
    have hw := hfile _ hstartkey
    simp only at hw
    simp only [targetPeriod] at hb
    have hcs : c.1.start = max pm.1.start (start?.getD defaultStart) := by rw [hb]
    have hce : c.1.stop = min pm.1.stop stop := by rw [hb]
    have hstopkey : stop ≤ pm.1.stop ∨ (Written file pm.1.stop ∧
        (pm.1.stop ≤ start?.getD defaultStart ∨ s < pm.1.stop)) := by
      rcases datesToPeriods_stop hpm with e | ⟨kv, hkv, e⟩
      · left; omega
      · right
        rw [← e]
        exact ⟨hfile kv (List.mem_of_mem_tail hkv), hbefore kv (by simpa [hkvs] using hkv)⟩
    have hsend : s < c.1.stop := by rcases hstopkey with e | ⟨_, e | e⟩ <;> omega
    refine cut_one hwf hm hf hl ?_ ?_ ?_
    · rw [hdates, hfs]
      refine ⟨?_, by omega, by omega⟩
      by_cases c' : pm.1.start ≤ s
      · right; right; omega
      · right; left
        rw [show max c.1.start s = pm.1.start by omega]; exact hw
    · by_cases c' : stop ≤ pm.1.stop
      · exact .inr ⟨l, hl, by omega⟩
      · refine .inl ((hdates _).mpr ?_)
        rcases hstopkey with e | ⟨e, _⟩
        · omega
        · rw [show min c.1.stop l.stop = pm.1.stop by omega]
          exact ⟨.inr (.inl e), by omega, by omega⟩
    · obtain ⟨q, hq, hq'⟩ := hcover (max c.1.start s) (by omega) (by omega)
      exact ⟨q, hq, max c.1.start s, ⟨by omega, by omega⟩, hq'⟩
  obtain ⟨rs, hrs⟩ := hok
  obtain ⟨hmap, hparts⟩ := C88_parts_are_right ps vars m hwf hm _ rs hrs
  have hin : ∀ t v, InForce ((datesToPeriods kvs).filterMap (clip (targetPeriod start? stop))) t v ↔
      At (targetPeriod start? stop) t ∧ InForceDates kvs t v := by
    obtain ⟨r, hr, hr'⟩ := C04_clip_dates kvs (targetPeriod start? stop) ht hne hasc hmax
    rw [hdef] at hr
    cases Option.some.inj (Except.ok.inj hr)
    exact hr'
  have hmemr : ∀ r ∈ rs, (r.1, r.2.1) ∈ (datesToPeriods kvs).filterMap (clip (targetPeriod start? stop)) := by
    intro r hr; rw [← hmap]; exact List.mem_map.mpr ⟨r, hr, rfl⟩
  have hsorted : rs.Pairwise (fun a b => a.1.stop ≤ b.1.start) := by
    have := filterMap_sorted (targetPeriod start? stop) (datesToPeriods kvs) ht hd.1
      ((datesToPeriods_pairwise hasc).imp (fun h => h.1))
    rw [← hmap, List.pairwise_map] at this
    exact this.imp (fun h => h.1)
  refine ⟨ps, m, rs, hg, hm, by unfold subsets; rw [hdef]; exact hrs, ?_, hparts, ?_⟩
  · rw [parts_concat hwf rs hsorted (fun r hr => ⟨by rw [(hparts r hr).1, hmp], (hparts r hr).2.2.1⟩)]
    refine List.filter_congr ?_
    intro q hq
    have hqn := wf_nonempty hwf q hq
    have hq1 := wf_first hwf hf q hq
    have hq2 := wf_last hwf hl q hq
    rw [decide_eq_decide]
    constructor
    · rintro ⟨r, hr, ho⟩
      have hqp : q ∈ r.2.2.periods := by
        rw [(hparts r hr).1, hmp]; exact List.mem_filter.mpr ⟨hq, by simpa using ho⟩
      have hb := (hparts r hr).2.2.1 q hqp
      obtain ⟨-, -, k, hk, hk', -⟩ := ((hin q.start r.2.1).mp ⟨r.1, hmemr r hr, by omega, by omega⟩)
      simp only [hkvs, List.mem_cons] at hk
      rcases hk with hk | hk
      · simp only [Prod.mk.injEq] at hk; omega
      · have := List.rel_of_pairwise_cons (a := k0) hasc (List.mem_map_of_mem (f := (·.1)) hk)
        simp only at this
        omega
    · intro hk
      have : ∃ v, InForceDates kvs q.start v := by
        obtain ⟨kv, h1, h2, h3⟩ := latest kvs q.start ⟨(k0, v0), by simp [hkvs], hk⟩
        exact ⟨kv.2, by omega, kv.1, h1, h2, h3⟩
      obtain ⟨v, hv⟩ := this
      obtain ⟨p, hp, hpt⟩ := (hin q.start v).mpr ⟨⟨by simp only [targetPeriod]; omega, by simp only [targetPeriod]; omega⟩, hv⟩
      rw [← hmap] at hp
      obtain ⟨r, hr, e⟩ := List.mem_map.mp hp
      simp only [Prod.mk.injEq] at e
      refine ⟨r, hr, q.start, ?_, by omega, by omega⟩
      rw [e.1]; exact hpt
  · intro r hr q hq t hqt
    have hb := (hparts r hr).2.2.1 q hq
    obtain ⟨h1, h2⟩ := hqt
    exact ((hin t r.2.1).mp ⟨r.1, hmemr r hr, by omega, by omega⟩).2

theorem cut_fail {α : Type} {m : VarMap} {ms : List (Period × α)} {pm : Period × α} (hpm : pm ∈ ms)
    (h : ∀ i j sub, pm.1.getPeriodIndices m.periods = .ok (i, j) → m.getSubset i j = .ok sub → False) :
    cut m ms = .error .programmingError ∨ cut m ms = .error .indexError := by
  have : ∃ e, cut m ms = .error e := by
    induction ms with
    | nil => simp at hpm
    | cons pa ms ih =>
      obtain ⟨p, a⟩ := pa
      unfold cut
      cases hij : p.getPeriodIndices m.periods with
      | error e => exact ⟨e, rfl⟩
      | ok ij =>
        obtain ⟨i, j⟩ := ij
        simp only
        cases hs : m.getSubset i j with
        | error e => exact ⟨e, rfl⟩
        | ok sub =>
          simp only
          rcases List.mem_cons.mp hpm with rfl | hpm
          · exact absurd hs (fun hs => h i j sub hij hs)
          · obtain ⟨e, he⟩ := ih hpm
            exact ⟨e, by rw [he]⟩
  obtain ⟨e, he⟩ := this
  rcases cut_error he with rfl | rfl
  · exact .inl he
  · exact .inr he

/-- **C88, dates before the run.** Without START the models are restricted to what follows 1900-01-01, not to the run. A
later date of a model that is after 1900-01-01 but not after the first date of the run makes an internal error, although
nothing is wrong with the file. -/
theorem C88_dates_before_the_run_fail {α : Type} (file : Node) (tv : List DateTime) (stop s : DateTime)
    (vars : Expression.Vars) (k0 : Int) (v0 : α) (rest : List (Int × α))
    (hs : StartsAt tv none s) (h : s < stop)
    (hasc : (((k0, v0) :: rest).map (·.1)).Pairwise (· < ·)) (hmax : ∀ kv ∈ (k0, v0) :: rest, kv.1 < dtMax)
    (kv : Int × α) (hkv : kv ∈ rest) (h1 : defaultStart < kv.1) (h2 : kv.1 ≤ s) :
    ∃ ps m, globalPeriods file tv none stop = .ok ps ∧ VarMap.make ps vars = .ok m ∧
      (subsets m (.dict (((k0, v0) :: rest).map (fun kv => (Key.date kv.1, kv.2)))) (targetPeriod none stop) =
        .error .programmingError ∨
       subsets m (.dict (((k0, v0) :: rest).map (fun kv => (Key.date kv.1, kv.2)))) (targetPeriod none stop) =
        .error .indexError) := by
  obtain ⟨ps, f, l, hg, hwf, hf, hfs, hl, hls, hdates⟩ := run_dates file tv none stop s hs h
  obtain ⟨m, hm⟩ : ∃ m, VarMap.make ps vars = .ok m := ⟨_, make_ok hl vars⟩
  have hmp : m.periods = ps := by rw [make_ok hl] at hm; cases Except.ok.inj hm; rfl
  have ht : (targetPeriod none stop).start < (targetPeriod none stop).stop := by
    simp only [targetPeriod, Option.getD_none]; omega
  have hd := datesToPeriods_defs hasc hmax
  have hdef := define_dates _ (targetPeriod none stop) ht (by simp) hasc hmax
  refine ⟨ps, m, hg, hm, ?_⟩
  unfold subsets
  rw [hdef]
  simp only
  obtain ⟨pm, hpm, hstop⟩ := datesToPeriods_before (kvs := (k0, v0) :: rest) (kv := kv) (by simpa using hkv)
  have hpn := hd.1 pm hpm
  cases hcl : clip (targetPeriod none stop) pm with
  | none =>
    exfalso
    refine clip_none hcl (max pm.1.start defaultStart) ⟨⟨by omega, by omega⟩, ?_, ?_⟩
    · simp only [targetPeriod, Option.getD_none]; omega
    · simp only [targetPeriod]; omega
  | some c =>
    refine cut_fail (List.mem_filterMap.mpr ⟨pm, hpm, hcl⟩) ?_
    intro i j sub hij hsub
    obtain ⟨e1, e2, e3, -⟩ := part_right hwf hm hij hsub
    obtain ⟨q, hq⟩ := List.exists_mem_of_ne_nil _ e2
    have hqin := e3 q hq
    rw [e1, hmp] at hq
    have hq' := (List.mem_filter.mp hq).1
    have := wf_first hwf hf q hq'
    have := wf_nonempty hwf q hq'
    have hb := clip_bounds hcl
    have hce : c.1.stop = min pm.1.stop stop := by rw [hb]; rfl
    omega

/-- **C88, dates that were not seen.** A date of a model inside the run that is neither a date of the time series nor a
date key of the file (a date written with quotes is accepted as the date of a model, but is not found in the file) makes
an internal error; the model is never given periods of another model. -/
theorem C88_unseen_dates_fail {α : Type} (file : Node) (tv : List DateTime) (start? : Option DateTime)
    (stop s : DateTime) (vars : Expression.Vars) (kvs : List (Int × α))
    (hs : StartsAt tv start? s) (hlo : start?.getD defaultStart ≤ s) (h : s < stop)
    (hasc : (kvs.map (·.1)).Pairwise (· < ·)) (hmax : ∀ kv ∈ kvs, kv.1 < dtMax)
    (kv : Int × α) (hkv : kv ∈ kvs) (h1 : s < kv.1) (h2 : kv.1 < stop) (h3 : kv.1 ∉ tv)
    (h4 : ¬ Written file kv.1) :
    ∃ ps m, globalPeriods file tv start? stop = .ok ps ∧ VarMap.make ps vars = .ok m ∧
      (subsets m (.dict (kvs.map (fun kv => (Key.date kv.1, kv.2)))) (targetPeriod start? stop) =
        .error .programmingError ∨
       subsets m (.dict (kvs.map (fun kv => (Key.date kv.1, kv.2)))) (targetPeriod start? stop) =
        .error .indexError) := by
  obtain ⟨ps, f, l, hg, hwf, hf, hfs, hl, hls, hdates⟩ := run_dates file tv start? stop s hs h
  obtain ⟨m, hm⟩ : ∃ m, VarMap.make ps vars = .ok m := ⟨_, make_ok hl vars⟩
  have hmp : m.periods = ps := by rw [make_ok hl] at hm; cases Except.ok.inj hm; rfl
  have ht : (targetPeriod start? stop).start < (targetPeriod start? stop).stop := by
    simp only [targetPeriod]; omega
  have hd := datesToPeriods_defs hasc hmax
  have hne : kvs ≠ [] := by rintro rfl; simp at hkv
  have hdef := define_dates _ (targetPeriod start? stop) ht hne hasc hmax
  refine ⟨ps, m, hg, hm, ?_⟩
  unfold subsets
  rw [hdef]
  simp only
  obtain ⟨pm, hpm, hst⟩ : ∃ pm ∈ datesToPeriods kvs, pm.1.start = kv.1 := by
    have : kv.1 ∈ (datesToPeriods kvs).map (fun pm => pm.1.start) := by
      rw [datesToPeriods_starts]; exact List.mem_map_of_mem hkv
    obtain ⟨pm, hpm, e⟩ := List.mem_map.mp this
    exact ⟨pm, hpm, e⟩
  have hpn := hd.1 pm hpm
  cases hcl : clip (targetPeriod start? stop) pm with
  | none =>
    exfalso
    refine clip_none hcl kv.1 ⟨⟨by omega, by omega⟩, ?_, ?_⟩
    · simp only [targetPeriod]; omega
    · simp only [targetPeriod]; omega
  | some c =>
    refine cut_fail (List.mem_filterMap.mpr ⟨pm, hpm, hcl⟩) ?_
    intro i j sub hij hsub
    rw [hmp] at hij
    obtain ⟨f', l', hf', -, ⟨hi, hi'⟩, -⟩ := getPeriodIndices_ok hij
    rw [hf] at hf'; cases Option.some.inj hf'
    have hb := clip_bounds hcl
    have hcs : c.1.start = max pm.1.start (start?.getD defaultStart) := by rw [hb]; rfl
    simp only [List.getElem_map] at hi'
    have hex : ∃ q ∈ ps, q.start = kv.1 := ⟨_, List.getElem_mem _, by rw [hi']; omega⟩
    obtain ⟨h5 | h5 | h5, -, -⟩ := (hdates kv.1).mp hex
    · exact h3 h5
    · exact h4 h5
    · omega

/-- **C88, models without dates.** A model that does not change over time is given the whole run, whether START is given
or not. -/
theorem C88_plain_models {α : Type} (file : Node) (tv : List DateTime) (start? : Option DateTime)
    (stop s : DateTime) (vars : Expression.Vars) (a : α) (hs : StartsAt tv start? s) (h : s < stop)
    (hlo : start?.getD defaultStart ≤ s) :
    ∃ ps m sub, globalPeriods file tv start? stop = .ok ps ∧ VarMap.make ps vars = .ok m ∧
      subsets m (.plain a) (targetPeriod start? stop) = .ok [(targetPeriod start? stop, a, sub)] ∧
      sub.periods = ps ∧ ((∀ kv ∈ vars, kv.2.length = ps.length) → sub.vars = vars) := by
  obtain ⟨ps, f, l, hg, hwf, hf, hfs, hl, hls, hdates⟩ := run_dates file tv start? stop s hs h
  obtain ⟨m, hm⟩ : ∃ m, VarMap.make ps vars = .ok m := ⟨_, make_ok hl vars⟩
  have hmp : m.periods = ps ∧ m.vars = vars := by rw [make_ok hl] at hm; cases Except.ok.inj hm; exact ⟨rfl, rfl⟩
  have hfp := List.mem_of_head? hf
  have hov : ∀ q ∈ ps, Overlap (targetPeriod start? stop) q := by
    intro q hq
    have h1 := wf_first hwf hf q hq
    have h2 := wf_last hwf hl q hq
    have h3 := wf_nonempty hwf q hq
    exact ⟨q.start, ⟨by simp only [targetPeriod]; omega, by simp only [targetPeriod]; omega⟩, by omega, h3⟩
  have hall : ps.filter (fun q => decide (Overlap (targetPeriod start? stop) q)) = ps := by
    rw [List.filter_eq_self]; intro q hq; simpa using hov q hq
  obtain ⟨i, j, sub, hij, hsub⟩ := cut_one (p := targetPeriod start? stop) hwf hm hf hl
    ⟨f, hfp, by simp only [targetPeriod]; omega⟩ (.inr ⟨l, hl, by simp only [targetPeriod]; omega⟩)
    ⟨f, hfp, hov f hfp⟩
  obtain ⟨e1, -, -, e4⟩ := part_right hwf hm hij hsub
  rw [hmp.1] at e1 e4
  rw [hmp.2] at e4
  refine ⟨ps, m, sub, hg, hm, ?_, by rw [e1, hall], ?_⟩
  · have hd : defineTimeModelForPeriod (.plain a) (targetPeriod start? stop) =
        .ok (some [(targetPeriod start? stop, a)]) := by
      unfold defineTimeModelForPeriod defaultTemporalModel
      have ht : (targetPeriod start? stop).start < (targetPeriod start? stop).stop := by
        simp only [targetPeriod]; omega
      simp only [List.foldl_cons, List.foldl_nil, clipStep_eq, clip, Period.intersection, Period.intersects,
        Period.containsDate]
      simp [ht, dictSet]
    unfold subsets
    rw [hd]
    simp only [cut, hij, hsub]
  · intro hlen
    rw [e4 hlen]
    conv_rhs => rw [← List.map_id vars]
    refine List.map_congr_left ?_
    intro kv hkv
    have : (ps.zip kv.2).filter (fun qv => decide (Overlap (targetPeriod start? stop) qv.1)) = ps.zip kv.2 := by
      rw [List.filter_eq_self]
      intro qv hqv
      simpa using hov qv.1 (List.of_mem_zip hqv).1
    rw [this, List.map_snd_zip (by have := hlen kv hkv; omega)]
    rfl

/-! ## Examples -/

/-- A file with a model that changes at 7305 and at 7670 days after 2000 (counted from 0001), START not given. -/
def exFile : Node :=
  .dict [(.other "END", .scalar), (.other "INSTALLATIONS", .list [.dict [(.other "ENERGY_USAGE_MODEL",
    .dict [(.date (738000 * 86400000000), .scalar), (.date (738400 * 86400000000), .dict [(.date 5, .scalar)])])]])]

example : findDateKeys exFile = [738000 * 86400000000, 738400 * 86400000000, 5] := by
  decide +kernel

/-- Non-vacuity of `C88_dated_models`: time series dates 737900, 738200 and 738500; the run has the periods of the
model, cut at its dates. -/
example : StartsAt [737900 * 86400000000, 738200 * 86400000000, 738500 * 86400000000] none (737900 * 86400000000) ∧
    (globalPeriods exFile [737900 * 86400000000, 738200 * 86400000000, 738500 * 86400000000] none
      (738500 * 86400000000) >>= fun ps => VarMap.make ps [("x", [some 1, some 2, some 3, some 4])] >>= fun m =>
      subsets m (.dict [(.date (738000 * 86400000000), "a"), (.date (738400 * 86400000000), "b")])
        (targetPeriod none (738500 * 86400000000)) >>= fun rs =>
      .ok (rs.map fun r => (r.2.1, r.2.2.periods.map (fun p => [p.start / 86400000000, p.stop / 86400000000]),
        r.2.2.vars.map (fun kv => kv.2.map (fun v => (v.getD 0).num))))) =
    .ok [("a", [[738000, 738200], [738200, 738400]], [[2, 3]]),
      ("b", [[738400, 738500]], [[4]])] := by
  refine ⟨⟨by decide, by decide⟩, by decide +kernel⟩

/-- Non-vacuity of `C88_dates_before_the_run_fail`: the model changes at 738400, the run starts at 738450. -/
example : (globalPeriods exFile [738450 * 86400000000] none (738500 * 86400000000) >>= fun ps =>
      VarMap.make ps [] >>= fun m =>
      subsets m (.dict [(.date (738000 * 86400000000), "a"), (.date (738400 * 86400000000), "b")])
        (targetPeriod none (738500 * 86400000000)) >>= fun rs => .ok rs.length) = .error .programmingError := by
  decide +kernel

/-- The same file with START is fine. -/
example : (globalPeriods exFile [] (some (738450 * 86400000000)) (738500 * 86400000000) >>= fun ps =>
      VarMap.make ps [] >>= fun m =>
      subsets m (.dict [(.date (738000 * 86400000000), "a"), (.date (738400 * 86400000000), "b")])
        (targetPeriod (some (738450 * 86400000000)) (738500 * 86400000000)) >>= fun rs =>
        .ok (rs.map (·.2.1))) = .ok ["b"] := by
  decide +kernel

end Verif.C88
