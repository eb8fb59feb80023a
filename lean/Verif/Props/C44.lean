import Verif.Model.Pipeline
import Mathlib.Data.List.Basic
import Mathlib.Data.List.Nodup
import Mathlib.Logic.Relation

/-!
# C44: pipeline connections chain the units
-/

namespace Verif.C44
open Verif.Pipeline

/-- The ids of all units in order. -/
def unitIds (sections : List (List PU)) : List Nat := sections.flatten.map (·.id)

/-! ## Lemmas -/

/-- Connections of a list of ids. -/
def chain : List Nat → List (Nat × Nat)
  | [] => []
  | [_] => []
  | a :: b :: l => (a, b) :: chain (b :: l)

theorem foldl_units (us : List PU) (c : List (Nat × Nat)) (p : Option Nat) :
    (us.foldl connectUnit ⟨c, p⟩).connections = c ++ chain (p.toList ++ us.map (·.id)) := by
  induction us generalizing c p with
  | nil => cases p <;> simp [chain]
  | cons u us ih =>
    rw [List.foldl_cons]
    cases p with
    | none =>
      simp only [connectUnit]
      rw [ih]
      simp
    | some q =>
      simp only [connectUnit]
      rw [ih]
      simp [chain]

theorem foldl_sections (sections : List (List PU)) (st : ConnState) :
    sections.foldl (fun (st : ConnState) (sec : List PU) => sec.foldl connectUnit st) st = sections.flatten.foldl connectUnit st := by
  induction sections generalizing st with
  | nil => rfl
  | cons s sections ih => rw [List.foldl_cons, ih, List.flatten_cons, List.foldl_append]

theorem connections_eq (sections : List (List PU)) : createConnections sections = chain (unitIds sections) := by
  unfold createConnections unitIds
  rw [foldl_sections, foldl_units]
  simp

theorem chain_length (l : List Nat) : (chain l).length = l.length - 1 := by
  induction l with
  | nil => rfl
  | cons a l ih =>
    cases l with
    | nil => rfl
    | cons b l => simp only [chain, List.length_cons] at *; omega

theorem chain_get (l : List Nat) (i : Nat) (h : i < (chain l).length) (h1 : i < l.length) (h2 : i + 1 < l.length) :
    (chain l)[i] = (l[i], l[i + 1]) := by
  induction l generalizing i with
  | nil => simp at h1
  | cons a l ih =>
    cases l with
    | nil => simp at h2
    | cons b l =>
      cases i with
      | zero => rfl
      | succ i =>
        simp only [chain, List.getElem_cons_succ]
        apply ih
        simp only [List.length_cons] at *
        omega

/-! ## The property -/

/-- **Positions.** There is one connection fewer than units, and the connection at position `i` goes from the unit at
position `i` to the next one, over all sections in order. -/
theorem C44_positions (sections : List (List PU)) :
    (createConnections sections).length = (unitIds sections).length - 1 ∧
    ∀ i (h : i < (createConnections sections).length) (h1 : i < (unitIds sections).length)
      (h2 : i + 1 < (unitIds sections).length),
      (createConnections sections)[i] = ((unitIds sections)[i], (unitIds sections)[i + 1]) := by
  rw [connections_eq]
  exact ⟨chain_length _, fun i h h1 h2 => chain_get _ i h h1 h2⟩

/-- **Nothing else.** A connection joins a unit and the next one; units being distinct, none is connected to itself,
each has at most one connection in and one out; nothing leads into the first or out of the last. -/
theorem C44_only_neighbours (sections : List (List PU)) (hn : (unitIds sections).Nodup) (a b : Nat) :
    ((a, b) ∈ createConnections sections ↔ ∃ pre post, unitIds sections = pre ++ a :: b :: post) ∧
    ((a, b) ∈ createConnections sections → a ≠ b) ∧
    (∀ b', (a, b) ∈ createConnections sections → (a, b') ∈ createConnections sections → b = b') ∧
    (∀ a', (a, b) ∈ createConnections sections → (a', b) ∈ createConnections sections → a = a') ∧
    ((a, b) ∈ createConnections sections → (unitIds sections).head? ≠ some b ∧ (unitIds sections).getLast? ≠ some a) := by
  rw [connections_eq]
  have key : ∀ l : List Nat, ∀ a b, (a, b) ∈ chain l ↔ ∃ pre post, l = pre ++ a :: b :: post := by
    intro l
    induction l with
    | nil => simp [chain]
    | cons x l ih =>
      intro a b
      cases l with
      | nil =>
        simp only [chain, List.not_mem_nil, false_iff]
        rintro ⟨pre, post, h⟩
        have := congrArg List.length h
        simp at this
        omega
      | cons y l =>
        simp only [chain, List.mem_cons]
        rw [ih a b]
        constructor
        · rintro (h | ⟨pre, post, h⟩)
          · cases h
            exact ⟨[], l, rfl⟩
          · exact ⟨x :: pre, post, by rw [h]; rfl⟩
        · rintro ⟨pre, post, h⟩
          cases pre with
          | nil =>
            simp only [List.nil_append, List.cons.injEq] at h
            left
            rw [h.1, h.2.1]
          | cons z pre =>
            right
            simp only [List.cons_append, List.cons.injEq] at h
            exact ⟨pre, post, h.2⟩
  generalize unitIds sections = l at *
  have pos : ∀ a b, (a, b) ∈ chain l → ∃ (i : Nat) (h : i + 1 < l.length), l[i] = a ∧ l[i + 1] = b := by
    intro a b h
    obtain ⟨pre, post, rfl⟩ := (key l a b).mp h
    refine ⟨pre.length, by simp, by simp, by simp⟩
  have inj : ∀ (i j : Nat) (hi : i < l.length) (hj : j < l.length), l[i] = l[j] → i = j :=
    fun i j hi hj h => (List.Nodup.getElem_inj_iff hn).mp h
  refine ⟨key l a b, ?_, ?_, ?_, ?_⟩
  · intro h hab
    obtain ⟨i, hi, h1, h2⟩ := pos a b h
    have := inj i (i + 1) (by omega) hi (by rw [h1, h2, hab])
    omega
  · intro b' h h'
    obtain ⟨i, hi, h1, h2⟩ := pos a b h
    obtain ⟨j, hj, g1, g2⟩ := pos a b' h'
    have := inj i j (by omega) (by omega) (by rw [h1, g1])
    subst this
    rw [← h2, g2]
  · intro a' h h'
    obtain ⟨i, hi, h1, h2⟩ := pos a b h
    obtain ⟨j, hj, g1, g2⟩ := pos a' b h'
    have := inj (i + 1) (j + 1) hi hj (by rw [h2, g2])
    have : i = j := by omega
    subst this
    rw [← h1, g1]
  · intro h
    obtain ⟨i, hi, h1, h2⟩ := pos a b h
    constructor
    · intro hh
      rw [List.head?_eq_getElem?, List.getElem?_eq_getElem (by omega)] at hh
      have := inj 0 (i + 1) (by omega) hi (by rw [h2]; simpa using hh)
      omega
    · intro hh
      rw [List.getLast?_eq_getElem?, List.getElem?_eq_getElem (by omega)] at hh
      have := inj (l.length - 1) i (by omega) (by omega) (by rw [h1]; simpa using hh)
      omega

/-- **Everything is connected.** Every later unit is reached from every earlier one by following connections, across
sections and past empty ones. -/
theorem C44_reachable (sections : List (List PU)) (i j : Nat) (hij : i < j) (hj : j < (unitIds sections).length) :
    Relation.TransGen (fun a b => (a, b) ∈ createConnections sections) (unitIds sections)[i] (unitIds sections)[j] := by
  obtain ⟨hl, hg⟩ := C44_positions sections
  have step : ∀ k, (h : k + 1 < (unitIds sections).length) →
      ((unitIds sections)[k], (unitIds sections)[k + 1]) ∈ createConnections sections := by
    intro k h
    rw [← hg k (by omega) (by omega) h]
    exact List.getElem_mem _
  obtain ⟨d, rfl⟩ : ∃ d, j = i + 1 + d := ⟨j - (i + 1), by omega⟩
  induction d with
  | zero => exact Relation.TransGen.single (step i hj)
  | succ d ih => exact Relation.TransGen.tail (ih (by omega) (by omega) step) (step (i + 1 + d) hj)

/-- **Sections do not matter**: only the order of the units does. -/
theorem C44_sections (sections sections' : List (List PU)) (h : sections.flatten = sections'.flatten) :
    createConnections sections = createConnections sections' := by
  rw [connections_eq, connections_eq, unitIds, unitIds, h]

/-! ## Examples -/

example : createConnections [[⟨3, true⟩, ⟨1, false⟩], [], [⟨7, true⟩], [⟨2, false⟩]] = [(3, 1), (1, 7), (7, 2)] := by
  decide
example : createConnections [[], [⟨3, true⟩], []] = [] := by decide

end Verif.C44
