import Verif.Model.Pipeline
import Mathlib.Data.List.Basic
import Mathlib.Data.List.Nodup
import Mathlib.Data.List.Induction
import Mathlib.Tactic.TypeStar

/-!
# C43: partitioning a process train keeps every unit in order
-/

namespace Verif.C43
open Verif.Time Verif.Pipeline

variable {κ : Type}

/-! ## Specification -/

/-- The constraints are in order: at most one for the outlet, only known units, no unit twice. -/
def WellFormed (ids : String → Option Nat) (cs : List (Constraint κ)) : Prop :=
  (cs.filter (fun c => c.unit.isNone)).length ≤ 1 ∧
  (∀ c ∈ cs, ∀ n, c.unit = some n → (ids n).isSome = true) ∧
  (cs.filterMap (fun c => c.unit.bind ids)).Nodup

/-- The unit carries a constraint. -/
def Constrained (ids : String → Option Nat) (cs : List (Constraint κ)) (u : PU) : Prop :=
  ∃ c ∈ cs, ∃ n, c.unit = some n ∧ ids n = some u.id

/-- A constraint for the outlet. -/
def HasTerminal (cs : List (Constraint κ)) : Prop := ∃ c ∈ cs, c.unit = none

/-! ## Lemmas -/

/-- What the collected constraints are, in terms of the ones read so far. -/
structure Coll (ids : String → Option Nat) (cs : List (Constraint κ)) (st : Collected κ) : Prop where
  keys : st.byUnit.map (·.1) = cs.filterMap (fun c => c.unit.bind ids)
  mem : ∀ i c, (i, c) ∈ st.byUnit → c ∈ cs ∧ ∃ n, c.unit = some n ∧ ids n = some i
  term : ∀ c, st.terminal = some c → c ∈ cs ∧ c.unit = none
  none : st.terminal = none → ∀ c ∈ cs, c.unit ≠ none
  wf : WellFormed ids cs

theorem wellFormed_append (ids : String → Option Nat) (cs : List (Constraint κ)) (c : Constraint κ)
    (h : WellFormed ids (cs ++ [c])) : WellFormed ids cs := by
  obtain ⟨h1, h2, h3⟩ := h
  refine ⟨?_, fun d hd => h2 d (by simp [hd]), ?_⟩
  · rw [List.filter_append, List.length_append] at h1
    omega
  · rw [List.filterMap_append] at h3
    exact (List.nodup_append.mp h3).1

theorem collectOne_spec (ids : String → Option Nat) (cs : List (Constraint κ)) (st : Collected κ) (c : Constraint κ)
    (h : Coll ids cs st) :
    (∀ st', collectOne ids st c = .ok st' → Coll ids (cs ++ [c]) st') ∧
    (∀ e, collectOne ids st c = .error e → e = .validation ∧ ¬ WellFormed ids (cs ++ [c])) := by
  obtain ⟨w1, w2, w3⟩ := h.wf
  unfold collectOne
  cases hc : c.unit with
  | none =>
    simp only
    have hfm : (cs ++ [c]).filterMap (fun c => c.unit.bind ids) = cs.filterMap (fun c => c.unit.bind ids) := by
      simp [List.filterMap_append, hc]
    have hfl : (cs ++ [c]).filter (fun c => c.unit.isNone) = cs.filter (fun c => c.unit.isNone) ++ [c] := by
      simp [List.filter_append, hc]
    cases ht : st.terminal with
    | none =>
      simp only [Option.isSome_none, Bool.false_eq_true, if_false]
      constructor
      · intro st' h'
        cases h'
        refine ⟨?_, ?_, ?_, ?_, ?_⟩
        · simp only; rw [h.keys, hfm]
        · intro i d hd
          obtain ⟨m1, m2⟩ := h.mem i d hd
          exact ⟨by simp [m1], m2⟩
        · intro d hd
          cases hd
          exact ⟨by simp, hc⟩
        · intro hd
          cases hd
        · refine ⟨?_, ?_, ?_⟩
          · rw [hfl]
            have : cs.filter (fun c => c.unit.isNone) = [] := by
              rw [List.filter_eq_nil_iff]
              intro d hd
              have := h.none ht d hd
              simpa [Option.isNone_iff_eq_none] using this
            rw [this]
            simp
          · intro d hd n hn
            rw [List.mem_append, List.mem_singleton] at hd
            rcases hd with hd | rfl
            · exact w2 d hd n hn
            · rw [hc] at hn; cases hn
          · rw [hfm]
            exact w3
      · intro e h'
        cases h'
    | some t =>
      simp only [Option.isSome_some, if_true]
      constructor
      · intro st' h'
        cases h'
      · intro e h'
        cases h'
        refine ⟨rfl, ?_⟩
        rintro ⟨v1, -, -⟩
        rw [hfl, List.length_append] at v1
        obtain ⟨m1, m2⟩ := h.term t ht
        have : 0 < (cs.filter (fun c => c.unit.isNone)).length :=
          List.length_pos_of_mem (List.mem_filter.mpr ⟨m1, by simp [m2]⟩)
        simp only [List.length_singleton] at v1
        omega
  | some n =>
    simp only
    have hfl : (cs ++ [c]).filter (fun c => c.unit.isNone) = cs.filter (fun c => c.unit.isNone) := by
      simp [List.filter_append, hc]
    cases hi : ids n with
    | none =>
      simp only
      constructor
      · intro st' h'
        cases h'
      · intro e h'
        cases h'
        refine ⟨rfl, ?_⟩
        rintro ⟨-, v2, -⟩
        have := v2 c (by simp) n hc
        rw [hi] at this
        cases this
    | some i =>
      simp only
      have hfm : (cs ++ [c]).filterMap (fun c => c.unit.bind ids) = cs.filterMap (fun c => c.unit.bind ids) ++ [i] := by
        simp [List.filterMap_append, hc, hi]
      by_cases hany : st.byUnit.any (fun e => e.1 == i) = true
      · rw [if_pos hany]
        constructor
        · intro st' h'
          cases h'
        · intro e h'
          cases h'
          refine ⟨rfl, ?_⟩
          rintro ⟨-, -, v3⟩
          rw [hfm, ← h.keys] at v3
          rw [List.any_eq_true] at hany
          obtain ⟨x, hx, hxi⟩ := hany
          rw [beq_iff_eq] at hxi
          have := (List.nodup_append.mp v3).2.2 i (List.mem_map.mpr ⟨x, hx, hxi⟩) i (by simp)
          exact this rfl
      · rw [if_neg hany]
        have hni : i ∉ st.byUnit.map (·.1) := by
          intro hm
          apply hany
          rw [List.mem_map] at hm
          obtain ⟨x, hx, hxi⟩ := hm
          rw [List.any_eq_true]
          exact ⟨x, hx, by rw [beq_iff_eq]; exact hxi⟩
        constructor
        · intro st' h'
          cases h'
          refine ⟨?_, ?_, ?_, ?_, ?_⟩
          · simp only [List.map_append, List.map_cons, List.map_nil]
            rw [h.keys, hfm]
          · intro j d hd
            simp only [List.mem_append, List.mem_singleton] at hd
            rcases hd with hd | hd
            · obtain ⟨m1, m2⟩ := h.mem j d hd
              exact ⟨by simp [m1], m2⟩
            · cases hd
              exact ⟨by simp, n, hc, hi⟩
          · intro d hd
            obtain ⟨m1, m2⟩ := h.term d hd
            exact ⟨by simp [m1], m2⟩
          · intro hd d hdm
            rw [List.mem_append, List.mem_singleton] at hdm
            rcases hdm with hdm | rfl
            · exact h.none hd d hdm
            · rw [hc]; simp
          · refine ⟨by rw [hfl]; exact w1, ?_, ?_⟩
            · intro d hd m hm
              rw [List.mem_append, List.mem_singleton] at hd
              rcases hd with hd | rfl
              · exact w2 d hd m hm
              · rw [hc] at hm
                cases hm
                rw [hi]
                rfl
            · rw [hfm, ← h.keys]
              rw [List.nodup_append]
              refine ⟨by rw [h.keys]; exact w3, by simp, ?_⟩
              intro a ha b hb
              rw [List.mem_singleton] at hb
              rw [hb]
              intro hab
              rw [hab] at ha
              exact hni ha
        · intro e h'
          cases h'

theorem collect_spec (ids : String → Option Nat) (pre cs : List (Constraint κ)) (st : Collected κ) (h : Coll ids pre st) :
    (∀ st', collect ids st cs = .ok st' → Coll ids (pre ++ cs) st') ∧
    (∀ e, collect ids st cs = .error e → e = .validation ∧ ¬ WellFormed ids (pre ++ cs)) := by
  induction cs generalizing pre st with
  | nil =>
    constructor
    · intro st' h'
      cases h'
      simpa using h
    · intro e h'
      cases h'
  | cons c cs ih =>
    obtain ⟨h1, h2⟩ := collectOne_spec ids pre st c h
    unfold collect
    cases hc : collectOne ids st c with
    | error e =>
      simp only
      constructor
      · intro st' h'
        cases h'
      · intro e' h'
        cases h'
        obtain ⟨g1, g2⟩ := h2 e hc
        refine ⟨g1, ?_⟩
        intro hw
        apply g2
        rw [show pre ++ c :: cs = (pre ++ [c]) ++ cs by simp] at hw
        obtain ⟨v1, v2, v3⟩ := hw
        refine ⟨?_, fun d hd => v2 d (by simp at hd ⊢; rcases hd with hd | hd <;> simp [hd]), ?_⟩
        · rw [List.filter_append, List.length_append] at v1
          omega
        · rw [List.filterMap_append] at v3
          exact (List.nodup_append.mp v3).1
    | ok st' =>
      simp only
      obtain ⟨i1, i2⟩ := ih (pre ++ [c]) st' (h1 st' hc)
      rw [show pre ++ [c] ++ cs = pre ++ c :: cs by simp] at i1 i2
      exact ⟨i1, i2⟩

theorem coll_nil (ids : String → Option Nat) : Coll (κ := κ) ids [] ⟨[], none⟩ where
  keys := rfl
  mem := by simp
  term := by simp
  none := by simp
  wf := ⟨by simp, by simp, by simp⟩

/-- Sections end at their constraint: the unit carrying it is the last, and no other unit of the section has one. -/
def EndsAt (find : Nat → Option (Constraint κ)) (s : MSection κ) : Prop :=
  ∃ front u, s.units = front ++ [u] ∧ s.target = u.id ∧ find u.id = some s.constraint ∧ ∀ v ∈ front, find v.id = none

theorem cut_spec (find : Nat → Option (Constraint κ)) (secs : List (MSection κ)) (cur us : List PU)
    (hs : ∀ s ∈ secs, EndsAt find s) (hc : ∀ u ∈ cur, find u.id = none) :
    (∀ s ∈ (cut find secs cur us).1, EndsAt find s) ∧ (∀ u ∈ (cut find secs cur us).2, find u.id = none) ∧
    ((cut find secs cur us).1.flatMap (·.units)) ++ (cut find secs cur us).2 = secs.flatMap (·.units) ++ cur ++ us ∧
    (cut find secs cur us).1.map (·.target) = secs.map (·.target) ++ (us.filter (fun u => (find u.id).isSome)).map (·.id) := by
  induction us generalizing secs cur with
  | nil => simp only [cut]; exact ⟨hs, hc, by simp, by simp⟩
  | cons u us ih =>
    unfold cut
    cases hf : find u.id with
    | none =>
      simp only
      obtain ⟨h1, h2, h3, h4⟩ := ih secs (cur ++ [u]) hs (by
        intro v hv
        rw [List.mem_append, List.mem_singleton] at hv
        rcases hv with hv | rfl
        · exact hc v hv
        · exact hf)
      refine ⟨h1, h2, by rw [h3]; simp, ?_⟩
      rw [h4, List.filter_cons_of_neg (by simp [hf])]
    | some c =>
      simp only
      obtain ⟨h1, h2, h3, h4⟩ := ih (secs ++ [⟨cur ++ [u], c, u.id⟩]) [] (by
        intro s hs'
        rw [List.mem_append, List.mem_singleton] at hs'
        rcases hs' with hs' | rfl
        · exact hs s hs'
        · exact ⟨cur, u, rfl, rfl, hf, hc⟩) (by simp)
      refine ⟨h1, h2, by rw [h3]; simp, ?_⟩
      rw [h4, List.filter_cons_of_pos (by simp [hf])]
      simp

/-- The look-up of the collected constraints. -/
theorem find_spec (ids : String → Option Nat) (cs : List (Constraint κ)) (col : Collected κ) (h : Coll ids cs col)
    (u : PU) : ((col.byUnit.find? (fun e => e.1 == u.id)).map (·.2) ≠ none ↔ Constrained ids cs u) ∧
    ∀ c, (col.byUnit.find? (fun e => e.1 == u.id)).map (·.2) = some c →
      c ∈ cs ∧ ∃ n, c.unit = some n ∧ ids n = some u.id := by
  have h2 : ∀ c, (col.byUnit.find? (fun e => e.1 == u.id)).map (·.2) = some c →
      c ∈ cs ∧ ∃ n, c.unit = some n ∧ ids n = some u.id := by
    intro c hc
    rw [Option.map_eq_some_iff] at hc
    obtain ⟨e, he, rfl⟩ := hc
    have hm := List.mem_of_find?_eq_some he
    have hp := List.find?_some he
    rw [beq_iff_eq] at hp
    obtain ⟨m1, n, m2, m3⟩ := h.mem e.1 e.2 hm
    exact ⟨m1, n, m2, by rw [m3, hp]⟩
  refine ⟨?_, h2⟩
  constructor
  · intro hne
    cases hc : (col.byUnit.find? (fun e => e.1 == u.id)).map (·.2) with
    | none => exact absurd hc hne
    | some c =>
      obtain ⟨m1, n, m2, m3⟩ := h2 c hc
      exact ⟨c, m1, n, m2, m3⟩
  · rintro ⟨c, hc, n, hn, hi⟩ hnone
    rw [Option.map_eq_none_iff, List.find?_eq_none] at hnone
    have : u.id ∈ col.byUnit.map (·.1) := by
      rw [h.keys, List.mem_filterMap]
      exact ⟨c, hc, by simp [hn, hi]⟩
    rw [List.mem_map] at this
    obtain ⟨e, he, hei⟩ := this
    have := hnone e he
    simp [hei] at this

/-! ## The property -/

/-- **Rejections.** The constraints are accepted exactly when at most one is for the outlet, all named units are known
and no unit is named twice; otherwise a validation error is raised. -/
theorem C43_rejects (units : List PU) (ids : String → Option Nat) (cs : List (Constraint κ)) :
    (¬ WellFormed ids cs → partition units ids cs = .error .validation) ∧
    (WellFormed ids cs → ∃ col, collect ids ⟨[], none⟩ cs = .ok col) := by
  obtain ⟨h1, h2⟩ := collect_spec ids [] cs ⟨[], none⟩ (coll_nil ids)
  simp only [List.nil_append] at h1 h2
  cases hc : collect ids ⟨[], none⟩ cs with
  | error e =>
    obtain ⟨g1, g2⟩ := h2 e hc
    refine ⟨?_, fun hw => absurd hw g2⟩
    intro _
    unfold partition
    rw [hc]
    simp only
    rw [g1]
  | ok col => exact ⟨fun hw => absurd (h1 col hc).wf hw, fun _ => ⟨col, rfl⟩⟩

/-- **Every unit once, in order.** If a section comes out at all, the units of the sections, one after another, are
exactly the units of the train; no section is empty. -/
theorem C43_keeps_units (units : List PU) (ids : String → Option Nat) (cs : List (Constraint κ))
    (secs : List (MSection κ)) (h : partition units ids cs = .ok secs) :
    (secs ≠ [] → secs.flatMap (·.units) = units) ∧ (∀ s ∈ secs, s.units ≠ []) ∧
    (secs = [] ↔ ¬ HasTerminal cs ∧ ∀ u ∈ units, ¬ Constrained ids cs u) := by
  unfold partition at h
  obtain ⟨k1, -⟩ := collect_spec ids [] cs ⟨[], none⟩ (coll_nil ids)
  simp only [List.nil_append] at k1
  cases hc : collect ids ⟨[], none⟩ cs with
  | error e => rw [hc] at h; cases h
  | ok col =>
    rw [hc] at h
    simp only at h
    have hcol := k1 col hc
    obtain ⟨c1, c2, c3, c4⟩ := cut_spec (fun i => (col.byUnit.find? (fun e => e.1 == i)).map (·.2)) [] [] units
      (by simp) (by simp)
    simp only [List.flatMap_nil, List.nil_append, List.map_nil] at c3 c4
    generalize cut (fun i => (col.byUnit.find? (fun e => e.1 == i)).map (·.2)) [] [] units = r at *
    have hne : ∀ s ∈ r.1, s.units ≠ [] := by
      intro s hs
      obtain ⟨front, u, hu, -⟩ := c1 s hs
      rw [hu]
      simp
    have hr : r.1 = [] ↔ ∀ u ∈ units, ¬ Constrained ids cs u := by
      constructor
      · intro hr u hu hcon
        rw [hr, List.map_nil] at c4
        have hmem : u.id ∈ (units.filter (fun u => ((col.byUnit.find? (fun e => e.1 == u.id)).map (·.2)).isSome)).map (·.id) := by
          apply List.mem_map.mpr
          refine ⟨u, List.mem_filter.mpr ⟨hu, ?_⟩, rfl⟩
          have := (find_spec ids cs col hcol u).1.mpr hcon
          rw [Option.isSome_iff_ne_none]
          exact this
        rw [← c4] at hmem
        simp at hmem
      · intro hall
        rw [← List.map_eq_nil_iff (f := (·.target)), c4, List.map_eq_nil_iff, List.filter_eq_nil_iff]
        intro u hu hsome
        apply hall u hu
        rw [← (find_spec ids cs col hcol u).1, ← Option.isSome_iff_ne_none]
        exact hsome
    unfold finish at h
    cases ht : col.terminal with
    | some c =>
      rw [ht] at h
      simp only at h
      have hterm : HasTerminal cs := ⟨c, (hcol.term c ht).1, (hcol.term c ht).2⟩
      cases hl : r.2.getLast? with
      | none => rw [hl] at h; cases h
      | some u =>
        rw [hl] at h
        cases h
        refine ⟨fun _ => by rw [List.flatMap_append]; simpa using c3, ?_, ?_⟩
        · intro s hs
          rw [List.mem_append, List.mem_singleton] at hs
          rcases hs with hs | rfl
          · exact hne s hs
          · simp only
            intro he
            rw [he] at hl
            cases hl
        · constructor
          · intro he
            simp at he
          · intro hh
            exact absurd hterm hh.1
    | none =>
      have hterm : ¬ HasTerminal cs := by
        rintro ⟨c, hcm, hcn⟩
        exact hcol.none ht c hcm hcn
      rw [ht] at h
      simp only at h
      split at h
      · cases h
      · cases hl : r.1.getLast? with
        | none =>
          rw [hl] at h
          cases h
          rw [List.getLast?_eq_none_iff] at hl
          refine ⟨fun hx => absurd hl hx, hne, ?_⟩
          rw [hr]
          exact ⟨fun h' => ⟨hterm, h'⟩, fun h' => h'.2⟩
        | some last =>
          rw [hl] at h
          simp only at h
          have hrne : r.1 ≠ [] := by
            intro he
            rw [he] at hl
            cases hl
          split at h
          · rename_i hemp
            cases h
            rw [List.isEmpty_iff] at hemp
            rw [hemp, List.append_nil] at c3
            refine ⟨fun _ => c3, hne, ?_⟩
            rw [hr]
            exact ⟨fun h' => ⟨hterm, h'⟩, fun h' => h'.2⟩
          · cases h
            have hsplit : r.1 = r.1.dropLast ++ [last] := (List.dropLast_append_getLast? _ hl).symm
            refine ⟨?_, ?_, ?_⟩
            · intro _
              rw [List.flatMap_append]
              simp only [List.flatMap_cons, List.flatMap_nil, List.append_nil]
              rw [hsplit, List.flatMap_append] at c3
              simpa using c3
            · intro s hs
              rw [List.mem_append, List.mem_singleton] at hs
              rcases hs with hs | rfl
              · exact hne s (List.dropLast_subset _ hs)
              · simp only
                intro he
                rw [List.append_eq_nil_iff] at he
                exact hne last (by rw [hsplit]; simp) he.1
            · constructor
              · intro he
                simp at he
              · intro hh
                exact absurd (hr.mpr hh.2) hrne

/-- **Sections end at their constraint.** Each section's target is one of its units and its constraint is the one of
that unit, or the outlet's for the last unit of the train; a target is followed within its section only by units that
are not compressors and only in the last section; every unit carrying a constraint is the target of a section, in
order. -/
theorem C43_targets (units : List PU) (ids : String → Option Nat) (cs : List (Constraint κ))
    (secs : List (MSection κ)) (h : partition units ids cs = .ok secs) :
    (∀ s ∈ secs, s.constraint ∈ cs ∧ ∃ front u tail, s.units = front ++ u :: tail ∧ s.target = u.id ∧
      (∀ v ∈ front, ¬ Constrained ids cs v) ∧ (∀ v ∈ tail, v.compressor = false ∧ ¬ Constrained ids cs v) ∧
      (tail ≠ [] → secs.getLast? = some s) ∧
      ((∃ n, s.constraint.unit = some n ∧ ids n = some u.id) ∨
        (s.constraint.unit = none ∧ tail = [] ∧ secs.getLast? = some s))) ∧
    (∃ l : List PU, l.Sublist units ∧ (∀ u ∈ units, Constrained ids cs u → u ∈ l) ∧
      secs.map (·.target) = l.map (·.id) ∧
      (¬ HasTerminal cs → ∀ u ∈ l, Constrained ids cs u)) := by
  unfold partition at h
  obtain ⟨k1, -⟩ := collect_spec ids [] cs ⟨[], none⟩ (coll_nil ids)
  simp only [List.nil_append] at k1
  cases hc : collect ids ⟨[], none⟩ cs with
  | error e => rw [hc] at h; cases h
  | ok col =>
    rw [hc] at h
    simp only at h
    have hcol := k1 col hc
    obtain ⟨c1, c2, c3, c4⟩ := cut_spec (fun i => (col.byUnit.find? (fun e => e.1 == i)).map (·.2)) [] [] units
      (by simp) (by simp)
    simp only [List.flatMap_nil, List.nil_append, List.map_nil] at c3 c4
    have hno : ∀ u : PU, (col.byUnit.find? (fun e => e.1 == u.id)).map (·.2) = none → ¬ Constrained ids cs u := by
      intro u hu hcon
      exact (find_spec ids cs col hcol u).1.mpr hcon hu
    generalize hr : cut (fun i => (col.byUnit.find? (fun e => e.1 == i)).map (·.2)) [] [] units = r at *
    have base : ∀ s ∈ r.1, s.constraint ∈ cs ∧ ∃ front u, s.units = front ++ [u] ∧ s.target = u.id ∧
        (∀ v ∈ front, ¬ Constrained ids cs v) ∧ (∃ n, s.constraint.unit = some n ∧ ids n = some u.id) := by
      intro s hs
      obtain ⟨front, u, e1, e2, e3, e4⟩ := c1 s hs
      obtain ⟨m1, n, m2, m3⟩ := (find_spec ids cs col hcol u).2 _ e3
      exact ⟨m1, front, u, e1, e2, fun v hv => hno v (e4 v hv), n, m2, m3⟩
    have base' : ∀ s ∈ r.1, ∀ P : Prop, s.constraint ∈ cs ∧ ∃ front u tail, s.units = front ++ u :: tail ∧
        s.target = u.id ∧ (∀ v ∈ front, ¬ Constrained ids cs v) ∧
        (∀ v ∈ tail, v.compressor = false ∧ ¬ Constrained ids cs v) ∧ (tail ≠ [] → P) ∧
        ((∃ n, s.constraint.unit = some n ∧ ids n = some u.id) ∨ (s.constraint.unit = none ∧ tail = [] ∧ P)) := by
      intro s hs P
      obtain ⟨b1, front, u, b2, b3, b4, b5⟩ := base s hs
      exact ⟨b1, front, u, [], b2, b3, b4, by simp, fun hx => absurd rfl hx, Or.inl b5⟩
    have hfilter : ∀ u ∈ units, Constrained ids cs u →
        u ∈ units.filter (fun u => ((col.byUnit.find? (fun e => e.1 == u.id)).map (·.2)).isSome) := by
      intro u hu hcon
      refine List.mem_filter.mpr ⟨hu, ?_⟩
      rw [Option.isSome_iff_ne_none]
      exact (find_spec ids cs col hcol u).1.mpr hcon
    have hfilter' : ∀ u ∈ units.filter (fun u => ((col.byUnit.find? (fun e => e.1 == u.id)).map (·.2)).isSome),
        Constrained ids cs u := by
      intro u hu
      have := (List.mem_filter.mp hu).2
      rw [Option.isSome_iff_ne_none] at this
      exact (find_spec ids cs col hcol u).1.mp this
    unfold finish at h
    cases ht : col.terminal with
    | some c =>
      rw [ht] at h
      simp only at h
      obtain ⟨t1, t2⟩ := hcol.term c ht
      have hterm : HasTerminal cs := ⟨c, t1, t2⟩
      cases hl : r.2.getLast? with
      | none => rw [hl] at h; cases h
      | some u =>
        rw [hl] at h
        cases h
        have hsp : r.2 = r.2.dropLast ++ [u] := (List.dropLast_append_getLast? _ hl).symm
        refine ⟨?_, ?_⟩
        · intro s hs
          rw [List.mem_append, List.mem_singleton] at hs
          rcases hs with hs | rfl
          · exact base' s hs _
          · refine ⟨t1, r.2.dropLast, u, [], hsp, rfl, ?_, by simp, fun hx => absurd rfl hx, Or.inr ⟨t2, rfl, by simp⟩⟩
            intro v hv
            exact hno v (c2 v (List.dropLast_subset _ hv))
        · refine ⟨units.filter (fun u => ((col.byUnit.find? (fun e => e.1 == u.id)).map (·.2)).isSome) ++ [u], ?_, ?_, ?_, ?_⟩
          · have hu2 : ∀ v ∈ r.2, ((col.byUnit.find? (fun e => e.1 == v.id)).map (·.2)).isSome = false := by
              intro v hv
              rw [c2 v hv]
              rfl
            have hf : units.filter (fun u => ((col.byUnit.find? (fun e => e.1 == u.id)).map (·.2)).isSome) =
                (r.1.flatMap (·.units)).filter (fun u => ((col.byUnit.find? (fun e => e.1 == u.id)).map (·.2)).isSome) := by
              rw [← c3, List.filter_append]
              have : r.2.filter (fun u => ((col.byUnit.find? (fun e => e.1 == u.id)).map (·.2)).isSome) = [] := by
                rw [List.filter_eq_nil_iff]
                intro v hv
                rw [hu2 v hv]
                simp
              rw [this, List.append_nil]
            rw [hf, ← c3]
            apply List.Sublist.append
            · exact List.filter_sublist
            · rw [List.singleton_sublist]
              exact List.mem_of_getLast? hl
          · intro v hv hcon
            rw [List.mem_append]
            exact Or.inl (hfilter v hv hcon)
          · rw [List.map_append, c4]
            simp
          · intro hx
            exact absurd hterm hx
    | none =>
      rw [ht] at h
      simp only at h
      split at h
      · cases h
      · rename_i hcomp
        have hlist : ∃ l : List PU, l.Sublist units ∧ (∀ u ∈ units, Constrained ids cs u → u ∈ l) ∧
            r.1.map (·.target) = l.map (·.id) ∧ (¬ HasTerminal cs → ∀ u ∈ l, Constrained ids cs u) :=
          ⟨_, List.filter_sublist, hfilter, c4, fun _ => hfilter'⟩
        cases hl : r.1.getLast? with
        | none =>
          rw [hl] at h
          cases h
          exact ⟨fun s hs => base' s hs _, hlist⟩
        | some last =>
          rw [hl] at h
          simp only at h
          split at h
          · cases h
            exact ⟨fun s hs => base' s hs _, hlist⟩
          · cases h
            have hsplit : r.1 = r.1.dropLast ++ [last] := (List.dropLast_append_getLast? _ hl).symm
            constructor
            · intro s hs
              rw [List.mem_append, List.mem_singleton] at hs
              rcases hs with hs | rfl
              · exact base' s (List.dropLast_subset _ hs) _
              · obtain ⟨b1, front, u, b2, b3, b4, b5⟩ := base last (by rw [hsplit]; simp)
                refine ⟨b1, front, u, r.2, ?_, b3, b4, ?_, fun _ => by simp, Or.inl b5⟩
                · simp only
                  rw [b2]
                  simp
                · intro v hv
                  refine ⟨?_, hno v (c2 v hv)⟩
                  by_contra hcc
                  rw [Bool.not_eq_false] at hcc
                  exact hcomp (List.any_eq_true.mpr ⟨v, hv, hcc⟩)
            · obtain ⟨l, l1, l2, l3, l4⟩ := hlist
              refine ⟨l, l1, l2, ?_, l4⟩
              rw [← l3]
              conv_rhs => rw [hsplit]
              simp

/-- **Compressors are covered.** Without a constraint for the outlet, a compressor behind the last unit that carries a
constraint (or anywhere, if none does) is rejected. -/
theorem C43_uncovered (units front tail : List PU) (ids : String → Option Nat) (cs : List (Constraint κ))
    (hu : units = front ++ tail) (ht : ∀ u ∈ tail, ¬ Constrained ids cs u) (hc : ∃ u ∈ tail, u.compressor = true)
    (hn : ¬ HasTerminal cs) : partition units ids cs = .error .validation := by
  obtain ⟨k1, k2⟩ := collect_spec ids [] cs ⟨[], none⟩ (coll_nil ids)
  simp only [List.nil_append] at k1 k2
  unfold partition
  cases hcc : collect ids ⟨[], none⟩ cs with
  | error e => simp only; rw [(k2 e hcc).1]
  | ok col =>
    simp only
    have hcol := k1 col hcc
    have hcutapp : ∀ (find : Nat → Option (Constraint κ)) (a b : List PU) (secs : List (MSection κ)) (cur : List PU),
        (∀ u ∈ b, find u.id = none) → (cut find secs cur (a ++ b)).2 = (cut find secs cur a).2 ++ b := by
      intro find a b
      induction a with
      | nil =>
        intro secs cur hb
        simp only [List.nil_append, cut]
        induction b generalizing cur with
        | nil => simp [cut]
        | cons x b ih =>
          unfold cut
          rw [hb x (by simp)]
          simp only
          rw [ih _ (fun u hu => hb u (by simp [hu]))]
          simp
      | cons x a ih =>
        intro secs cur hb
        simp only [List.cons_append, cut]
        cases find x.id with
        | none => simp only; exact ih _ _ hb
        | some c => simp only; exact ih _ _ hb
    have hterm : col.terminal = none := by
      cases h : col.terminal with
      | none => rfl
      | some c => exact absurd ⟨c, (hcol.term c h).1, (hcol.term c h).2⟩ hn
    unfold finish
    rw [hterm]
    simp only
    rw [if_pos]
    rw [hu, hcutapp _ _ _ _ _ (by
      intro u hu'
      by_contra hne
      exact ht u hu' ((find_spec ids cs col hcol u).1.mp hne))]
    obtain ⟨u, hu1, hu2⟩ := hc
    rw [List.any_eq_true]
    exact ⟨u, by simp [hu1], hu2⟩

/-! ## Findings and examples -/

def names : String → Option Nat
  | "A" => some 1
  | "B" => some 2
  | "C" => some 3
  | "other" => some 99
  | _ => none

def train : List PU := [⟨1, true⟩, ⟨2, true⟩, ⟨3, false⟩]

/-- **Finding.** A constraint for the outlet together with one for the last unit gives an IndexError instead of a
validation error. -/
theorem C43_outlet_and_last : partition train names [(⟨some "C", 10⟩ : Constraint Nat), ⟨none, 20⟩] =
    .error .indexError := by decide

/-- **Finding.** A constraint that names a unit of another pipeline is accepted and has no effect. -/
theorem C43_other_pipeline_ignored : partition train names [(⟨some "other", 10⟩ : Constraint Nat), ⟨none, 20⟩] =
    partition train names [(⟨none, 20⟩ : Constraint Nat)] := by decide

/-- **Finding.** A train without compressors and without constraints comes out as no section at all: its units are
dropped. -/
theorem C43_no_constraints_drops_units (u : PU) (h : u.compressor = false) :
    partition [u] names ([] : List (Constraint Nat)) = .ok [] := by
  simp [partition, collect, cut, finish, h]

example : partition train names [(⟨some "A", 10⟩ : Constraint Nat), ⟨some "B", 20⟩] =
    .ok [⟨[⟨1, true⟩], ⟨some "A", 10⟩, 1⟩, ⟨[⟨2, true⟩, ⟨3, false⟩], ⟨some "B", 20⟩, 2⟩] := by decide
example : partition train names [(⟨some "A", 10⟩ : Constraint Nat), ⟨none, 20⟩] =
    .ok [⟨[⟨1, true⟩], ⟨some "A", 10⟩, 1⟩, ⟨[⟨2, true⟩, ⟨3, false⟩], ⟨none, 20⟩, 3⟩] := by decide
example : partition train names [(⟨some "A", 10⟩ : Constraint Nat)] = .error .validation := by decide
example : partition train names [(⟨some "A", 10⟩ : Constraint Nat), ⟨some "A", 20⟩] = .error .validation := by decide

end Verif.C43
