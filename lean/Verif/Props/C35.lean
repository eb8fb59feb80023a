import Verif.Model.Names
import Mathlib.Data.List.Count
import Mathlib.Algebra.BigOperators.Group.List.Basic

/-!
C35: duplicate detection finds exactly the repeated names, and the model is accepted exactly when names are unique.
-/

namespace Verif.C35

open Verif.Time Verif.Names

theorem mem_from {κ : Type} [DecidableEq κ] (ns : List κ) : ∀ (seen : List κ) (x : κ),
    x ∈ duplicatesFrom seen ns ↔ (x ∈ seen ∧ 1 ≤ ns.count x) ∨ 2 ≤ ns.count x := by
  induction ns with
  | nil => intro seen x; simp [duplicatesFrom]
  | cons n ns ih =>
    intro seen x
    rw [duplicatesFrom]
    by_cases hn : n ∈ seen
    · rw [if_pos hn, List.mem_cons, ih, List.count_cons]
      by_cases hx : x = n
      · subst hx; simp [hn]
      · have : (n == x) = false := by simpa using fun h => hx h.symm
        simp [hx, this]
    · rw [if_neg hn, ih, List.count_cons, List.mem_cons]
      by_cases hx : x = n
      · subst hx; simp only [hn, false_and, false_or, beq_self_eq_true, if_true, true_or, true_and]; omega
      · have : (n == x) = false := by simpa using fun h => hx h.symm
        simp [hx, this]

/-- **C35.** The duplicates of a list of names (or dates) are exactly the elements that occur at least twice. -/
theorem C35_exact {κ : Type} [DecidableEq κ] (names : List κ) (x : κ) :
    x ∈ getDuplicates names ↔ 2 ≤ names.count x := by
  unfold getDuplicates
  rw [mem_from]
  simp

theorem no_duplicates {κ : Type} [DecidableEq κ] (names : List κ) :
    getDuplicates names = [] ↔ ∀ x, names.count x ≤ 1 := by
  rw [List.eq_nil_iff_forall_not_mem]
  simp only [C35_exact]
  constructor
  · intro h x; have := h x; omega
  · intro h x; have := h x; omega

/-- 1 if the names agree. -/
def is (x y : String) : Nat := if x = y then 1 else 0

/-- Specification: how many components of an installation are called `x`. -/
def timesUsed (i : Installation) (x : String) : Nat :=
  is i.name x + (i.fuelConsumers.map (is · x)).sum +
    (i.generatorSets.map fun g => is g.name x + (g.consumers.map (is · x)).sum).sum + (i.ventingEmitters.map (is · x)).sum

theorem count_sum (l : List String) (x : String) : l.count x = (l.map (is · x)).sum := by
  induction l with
  | nil => rfl
  | cons a l ih =>
    rw [List.count_cons, ih, List.map_cons, List.sum_cons]
    by_cases h : a = x
    · subst h; simp [is]; omega
    · simp [is, h]

theorem count_flatMap {γ : Type} (l : List γ) (f : γ → List String) (x : String) :
    (l.flatMap f).count x = (l.map fun c => (f c).count x).sum := by
  induction l with
  | nil => rfl
  | cons a l ih => simp [List.flatMap_cons, List.count_append, ih]

theorem count_installation (i : Installation) (x : String) : (installationNames i).count x = timesUsed i x := by
  unfold installationNames timesUsed
  rw [List.count_append, List.count_append, List.count_append, count_flatMap]
  simp only [generatorSetNames, count_sum, List.map_cons, List.map_nil, List.sum_cons, List.sum_nil]
  omega

/-- **C35.** With a named model, the component names are accepted exactly when no two components (including the model
itself) share a name. -/
theorem C35_components (m : String) (hm : m ≠ "") (a : Asset) :
    (validateComponentNames (some m) a = .ok () ↔
      ∀ x, is m x + (a.installations.map (timesUsed · x)).sum ≤ 1) ∧
    (validateComponentNames (some m) a = .ok () ∨ validateComponentNames (some m) a = .error .valueError) := by
  have hc : ∀ x, (m :: a.installations.flatMap installationNames).count x =
      is m x + (a.installations.map (timesUsed · x)).sum := by
    intro x
    rw [List.count_cons, count_flatMap]
    simp only [count_installation]
    by_cases h : m = x
    · subst h; simp [is]; omega
    · simp [is, h]
  simp only [validateComponentNames, hm, if_false]
  simp only [← hc, ← no_duplicates]
  split <;> simp [*]

/-- **C35.** Without a model name in the validation context, or with an empty one, any names are accepted. -/
theorem C35_components_unchecked (a : Asset) :
    validateComponentNames none a = .ok () ∧ validateComponentNames (some "") a = .ok () := ⟨rfl, rfl⟩

/-- **C35.** The time series collections are accepted exactly when their names differ. -/
theorem C35_time_series (a : Asset) :
    validateTimeSeriesNames a = .ok () ↔ ∀ x, (a.timeSeries.map (is · x)).sum ≤ 1 := by
  simp only [validateTimeSeriesNames, ← count_sum, ← no_duplicates]
  split <;> simp [*]

/-- The sections whose names share one name space. -/
def sections (a : Asset) : List (List String) :=
  [a.facilityInputs, a.models, a.fuelTypes, a.processPipelines, a.processUnits, a.fluids, a.processSimulations,
    a.pumpSimulations, a.fluidModels, a.inletStreams]

/-- **C35.** References are accepted exactly when no name is used twice, within a section or across sections. -/
theorem C35_references (a : Asset) :
    validateReferences a = .ok () ↔
      ∀ x, ((sections a).map fun s => (s.map (is · x)).sum).sum ≤ 1 := by
  simp only [validateReferences]
  have hc : ∀ x, (a.facilityInputs ++ a.models ++ a.fuelTypes ++ a.processPipelines ++ a.processUnits ++ a.fluids
      ++ a.processSimulations ++ a.pumpSimulations ++ a.fluidModels ++ a.inletStreams).count x =
      ((sections a).map fun s => (s.map (is · x)).sum).sum := by
    intro x
    simp only [sections, List.map_cons, List.map_nil, List.sum_cons, List.sum_nil, List.count_append, count_sum]
    omega
  simp only [← hc, ← no_duplicates]
  split
  · rename_i h; exact ⟨fun _ => h, fun _ => rfl⟩
  · rename_i h; exact ⟨fun h' => by simp at h', fun h' => absurd h' h⟩

/-! ### Non-vacuity -/

def sampleAsset : Asset :=
  { installations := [⟨"A", ["flare"], [⟨"genset", ["pump"]⟩], ["vent"]⟩, ⟨"B", [], [⟨"genset 2", ["pump 2"]⟩], []⟩]
    timeSeries := ["SIM", "SIM2"], facilityInputs := ["chart"], models := ["pump model"], fuelTypes := ["gas"]
    processPipelines := [], processUnits := [], fluids := [], processSimulations := [], pumpSimulations := []
    fluidModels := ["medium"], inletStreams := [] }

example : validateComponentNames (some "asset") sampleAsset = .ok () ∧
    validateComponentNames (some "flare") sampleAsset = .error .valueError ∧
    validateReferences sampleAsset = .ok () ∧
    validateReferences { sampleAsset with inletStreams := ["gas"] } = .error .valueError ∧
    getDuplicates ["a", "b", "a", "c", "b", "a"] = ["a", "b", "a"] := by decide +kernel

end Verif.C35
