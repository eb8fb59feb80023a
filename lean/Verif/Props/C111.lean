import Verif.Model.Schema

/-!
C111: the references found in a model are those of its expressions.

The specification speaks of places. A value of a field is a leaf, or a list or a dict of values; a leaf is reached by
steps into lists and dicts (`At`). An annotation allows leaves of certain kinds at certain places (`Allows`). A string
or number is an expression of a model when it is found in a field at a place where the annotation allows expressions,
or in the same way in a model inside the model (`Occurs`).
-/

set_option linter.unusedSectionVars false

namespace Verif.C111

open Verif.Schema

/-! ### Specification -/

/-- A step into a list, to a value of a dict, or to a key of a dict. -/
inductive Step where
  | elem
  | value
  | key
  deriving DecidableEq

/-- The kinds of leaves. -/
inductive Kind where
  | expr
  | model
  | text
  | nothing
  deriving DecidableEq

/-- The annotation allows leaves of this kind at this place. -/
inductive Allows : Ann → List Step → Kind → Prop where
  | plain : Allows .plain [] .text
  | ref : Allows .ref [] .text
  | nothing : Allows .nothing [] .nothing
  | expr : Allows .expr [] .expr
  | model : Allows .model [] .model
  | union {as a p k} : a ∈ as → Allows a p k → Allows (.union as) p k
  | list {a p k} : Allows a p k → Allows (.list a) (.elem :: p) k
  | value {a b p k} : Allows b p k → Allows (.dict a b) (.value :: p) k
  | key {a b p k} : Allows a p k → Allows (.dict a b) (.key :: p) k
  | annotated {a p k} : Allows a p k → Allows (.annotated a) p k

/-- The field allows leaves of this kind at this place: the marker of an outer `Annotated` is kept beside the
annotation. -/
def Field (d : Decl) (p : List Step) (k : Kind) : Prop :=
  (d.marked = true ∧ p = [] ∧ k = .expr) ∨ Allows d.ann p k

/-- A leaf of a value, and its place. -/
inductive At : Val → List Step → Val → Prop where
  | scalar (s) : At (.scalar s) [] (.scalar s)
  | other (n) : At (.other n) [] (.other n)
  | none : At .none [] .none
  | obj (c ds vs) : At (.obj c ds vs) [] (.obj c ds vs)
  | elem {l x p y} : x ∈ l → At x p y → At (.list l) (.elem :: p) y
  | value {ks l x p y} : x ∈ l → At x p y → At (.dict ks l) (.value :: p) y

/-- A string or number is an expression of a model. -/
inductive Occurs : Val → Scalar → Prop where
  | here {c ds vs d v p s} : (d, v) ∈ ds.zip vs → At v p (.scalar s) → Field d p .expr → Occurs (.obj c ds vs) s
  | inside {c ds vs d v p o s} : (d, v) ∈ ds.zip vs → At v p o → Field d p .model → Occurs o s →
      Occurs (.obj c ds vs) s

/-- The models in a model. -/
inductive Within : Val → Val → Prop where
  | self (c ds vs) : Within (.obj c ds vs) (.obj c ds vs)
  | inside {c ds vs d v p o m} : (d, v) ∈ ds.zip vs → At v p o → Within o m → Within (.obj c ds vs) m

/-- The places the walk looks at. -/
def places : List (List Step) := [[], [.elem], [.value], [.value, .elem]]

/-- The classes the walk is made for. Expressions and models are in the field itself, in a list, in a dict, or in lists
in a dict; a field with expressions does not also allow a single model, and where it allows other text it allows
expressions. -/
structure Regular (d : Decl) : Prop where
  near : ∀ p k, k = .expr ∨ k = .model → Field d p k → p ∈ places
  single : ∀ p, Field d p .expr → ¬ Field d [] .model
  text : ∀ p, ∀ q ∈ places, Field d p .expr → Field d q .text → Field d q .expr

/-- A value that pydantic lets through: scalars where text or an expression is allowed, models where models are. -/
def Fits (d : Decl) (v : Val) : Prop :=
  ∀ p y, At v p y →
    (∀ s, y = .scalar s → Field d p .expr ∨ Field d p .text) ∧ (∀ c ds vs, y = .obj c ds vs → Field d p .model)

/-- All classes in the model are such classes, and all values fit. -/
def Proper (m : Val) : Prop :=
  ∀ c ds vs, Within m (.obj c ds vs) → ∀ d v, (d, v) ∈ ds.zip vs → Regular d ∧ Fits d v

/-! ### Lemmas -/

section

mutual

theorem hasExpr_iff (a : Ann) : a.hasExpr = true ↔ ∃ p, Allows a p .expr := by
  cases a with
  | plain => simp only [Ann.hasExpr]; constructor
             · intro h; cases h
             · rintro ⟨p, h⟩; cases h
  | nothing => simp only [Ann.hasExpr]; constructor
               · intro h; cases h
               · rintro ⟨p, h⟩; cases h
  | ref => simp only [Ann.hasExpr]; constructor
           · intro h; cases h
           · rintro ⟨p, h⟩; cases h
  | model => simp only [Ann.hasExpr]; constructor
             · intro h; cases h
             · rintro ⟨p, h⟩; cases h
  | expr => simp only [Ann.hasExpr]; exact ⟨fun _ => ⟨[], .expr⟩, fun _ => trivial⟩
  | union as =>
    simp only [Ann.hasExpr]
    rw [anyExpr_iff as]
    constructor
    · rintro ⟨a, ha, p, h⟩; exact ⟨p, .union ha h⟩
    · rintro ⟨p, h⟩; cases h with | union ha h => exact ⟨_, ha, p, h⟩
  | list a =>
    simp only [Ann.hasExpr]
    rw [hasExpr_iff a]
    constructor
    · rintro ⟨p, h⟩; exact ⟨_, .list h⟩
    · rintro ⟨p, h⟩; cases h with | list h => exact ⟨_, h⟩
  | dict k v =>
    simp only [Ann.hasExpr, Bool.or_eq_true]
    rw [hasExpr_iff k, hasExpr_iff v]
    constructor
    · rintro (⟨p, h⟩ | ⟨p, h⟩)
      · exact ⟨_, .key h⟩
      · exact ⟨_, .value h⟩
    · rintro ⟨p, h⟩
      cases h with
      | value h => exact Or.inr ⟨_, h⟩
      | key h => exact Or.inl ⟨_, h⟩
  | annotated a =>
    simp only [Ann.hasExpr]
    rw [hasExpr_iff a]
    constructor
    · rintro ⟨p, h⟩; exact ⟨_, .annotated h⟩
    · rintro ⟨p, h⟩; cases h with | annotated h => exact ⟨_, h⟩

theorem anyExpr_iff (as : List Ann) : anyExpr as = true ↔ ∃ a ∈ as, ∃ p, Allows a p .expr := by
  cases as with
  | nil => simp [anyExpr]
  | cons a as =>
    simp only [anyExpr, Bool.or_eq_true, List.mem_cons]
    rw [hasExpr_iff a, anyExpr_iff as]
    constructor
    · rintro (h | ⟨b, hb, h⟩)
      · exact ⟨a, Or.inl rfl, h⟩
      · exact ⟨b, Or.inr hb, h⟩
    · rintro ⟨b, rfl | hb, h⟩
      · exact Or.inl h
      · exact Or.inr ⟨b, hb, h⟩

end

mutual

theorem hasModel_iff (a : Ann) : a.hasModel = true ↔ ∃ p, Allows a p .model := by
  cases a with
  | plain => simp only [Ann.hasModel]; constructor
             · intro h; cases h
             · rintro ⟨p, h⟩; cases h
  | nothing => simp only [Ann.hasModel]; constructor
               · intro h; cases h
               · rintro ⟨p, h⟩; cases h
  | ref => simp only [Ann.hasModel]; constructor
           · intro h; cases h
           · rintro ⟨p, h⟩; cases h
  | expr => simp only [Ann.hasModel]; constructor
            · intro h; cases h
            · rintro ⟨p, h⟩; cases h
  | model => simp only [Ann.hasModel]; exact ⟨fun _ => ⟨[], .model⟩, fun _ => trivial⟩
  | union as =>
    simp only [Ann.hasModel]
    rw [anyModel_iff as]
    constructor
    · rintro ⟨a, ha, p, h⟩; exact ⟨p, .union ha h⟩
    · rintro ⟨p, h⟩; cases h with | union ha h => exact ⟨_, ha, p, h⟩
  | list a =>
    simp only [Ann.hasModel]
    rw [hasModel_iff a]
    constructor
    · rintro ⟨p, h⟩; exact ⟨_, .list h⟩
    · rintro ⟨p, h⟩; cases h with | list h => exact ⟨_, h⟩
  | dict k v =>
    simp only [Ann.hasModel, Bool.or_eq_true]
    rw [hasModel_iff k, hasModel_iff v]
    constructor
    · rintro (⟨p, h⟩ | ⟨p, h⟩)
      · exact ⟨_, .key h⟩
      · exact ⟨_, .value h⟩
    · rintro ⟨p, h⟩
      cases h with
      | value h => exact Or.inr ⟨_, h⟩
      | key h => exact Or.inl ⟨_, h⟩
  | annotated a =>
    simp only [Ann.hasModel]
    rw [hasModel_iff a]
    constructor
    · rintro ⟨p, h⟩; exact ⟨_, .annotated h⟩
    · rintro ⟨p, h⟩; cases h with | annotated h => exact ⟨_, h⟩

theorem anyModel_iff (as : List Ann) : anyModel as = true ↔ ∃ a ∈ as, ∃ p, Allows a p .model := by
  cases as with
  | nil => simp [anyModel]
  | cons a as =>
    simp only [anyModel, Bool.or_eq_true, List.mem_cons]
    rw [hasModel_iff a, anyModel_iff as]
    constructor
    · rintro (h | ⟨b, hb, h⟩)
      · exact ⟨a, Or.inl rfl, h⟩
      · exact ⟨b, Or.inr hb, h⟩
    · rintro ⟨b, rfl | hb, h⟩
      · exact Or.inl h
      · exact Or.inr ⟨b, hb, h⟩

end

theorem isExpr_iff (d : Decl) : d.isExpr = true ↔ ∃ p, Field d p .expr := by
  unfold Decl.isExpr Field
  rw [Bool.or_eq_true, hasExpr_iff]
  constructor
  · rintro (h | ⟨p, h⟩)
    · exact ⟨[], Or.inl ⟨h, rfl, rfl⟩⟩
    · exact ⟨p, Or.inr h⟩
  · rintro ⟨p, ⟨h, -⟩ | h⟩
    · exact Or.inl h
    · exact Or.inr ⟨p, h⟩

theorem field_model (d : Decl) (p : List Step) : Field d p .model ↔ Allows d.ann p .model := by
  unfold Field
  constructor
  · rintro (⟨_, _, h⟩ | h)
    · cases h
    · exact h
  · exact Or.inr

theorem ex_cons {α : Type} {P : α → Prop} {a : α} {l : List α} : (∃ x ∈ a :: l, P x) ↔ P a ∨ ∃ x ∈ l, P x := by
  simp

/-- What the model contributes. -/
def Inner (o : Val) (s : Scalar) : Prop := ∃ c ds vs, o = .obj c ds vs ∧ s ∈ collect ds vs

theorem mem_item (v : Val) (s : Scalar) : s ∈ item v ↔ v = .scalar s ∨ Inner v s := by
  unfold Inner
  cases v <;> simp [item]
  · exact eq_comm

theorem mem_items (l : List Val) (s : Scalar) : s ∈ items l ↔ ∃ x ∈ l, x = .scalar s ∨ Inner x s := by
  induction l with
  | nil => simp [items]
  | cons v vs ih => simp only [items, List.mem_append, ih, mem_item, ex_cons]

theorem mem_entry (v : Val) (s : Scalar) :
    s ∈ entry v ↔ v = .scalar s ∨ Inner v s ∨ ∃ l, v = .list l ∧ ∃ x ∈ l, x = .scalar s ∨ Inner x s := by
  cases v with
  | scalar t => simp only [entry, List.mem_singleton, Inner]; constructor
                · rintro rfl; exact Or.inl rfl
                · rintro (h | ⟨_, _, _, h, _⟩ | ⟨_, h, _⟩)
                  · injection h with h; exact h.symm
                  · cases h
                  · cases h
  | none => simp [entry, Inner]
  | other n => simp [entry, Inner]
  | list l =>
    simp only [entry, mem_items]
    constructor
    · intro h; exact Or.inr (Or.inr ⟨l, rfl, h⟩)
    · rintro (h | ⟨_, _, _, h, _⟩ | ⟨_, h, h'⟩)
      · cases h
      · cases h
      · injection h with h; subst h; exact h'
  | dict ks l => simp [entry, Inner]
  | obj c ds vs => simp [entry, Inner]

theorem mem_entries (l : List Val) (s : Scalar) :
    s ∈ entries l ↔
      ∃ v ∈ l, v = .scalar s ∨ Inner v s ∨ ∃ l, v = .list l ∧ ∃ x ∈ l, x = .scalar s ∨ Inner x s := by
  induction l with
  | nil => simp [entries]
  | cons v vs ih => simp only [entries, List.mem_append, ih, mem_entry, ex_cons]

theorem mem_modelItem (v : Val) (s : Scalar) : s ∈ modelItem v ↔ Inner v s := by
  unfold Inner
  cases v <;> simp [modelItem]

theorem mem_models (l : List Val) (s : Scalar) : s ∈ models l ↔ ∃ x ∈ l, Inner x s := by
  induction l with
  | nil => simp [models]
  | cons v vs ih => simp only [models, List.mem_append, ih, mem_modelItem, ex_cons]

theorem mem_modelEntry (v : Val) (s : Scalar) :
    s ∈ modelEntry v ↔ Inner v s ∨ ∃ l, v = .list l ∧ ∃ x ∈ l, Inner x s := by
  cases v with
  | list l =>
    simp only [modelEntry, mem_models]
    constructor
    · intro h; exact Or.inr ⟨l, rfl, h⟩
    · rintro (⟨_, _, _, h, _⟩ | ⟨_, h, h'⟩)
      · cases h
      · injection h with h; subst h; exact h'
  | _ => simp [modelEntry, Inner]

theorem mem_modelEntries (l : List Val) (s : Scalar) :
    s ∈ modelEntries l ↔ ∃ v ∈ l, Inner v s ∨ ∃ l, v = .list l ∧ ∃ x ∈ l, Inner x s := by
  induction l with
  | nil => simp [modelEntries]
  | cons v vs ih => simp only [modelEntries, List.mem_append, ih, mem_modelEntry, ex_cons]

theorem at_scalar {v : Val} {s : Scalar} : At v [] (.scalar s) ↔ v = .scalar s := by
  constructor
  · intro h; cases h; rfl
  · rintro rfl; exact .scalar s

theorem at_nil {v o : Val} (h : At v [] o) : v = o := by cases h <;> rfl

theorem at_obj {v : Val} {c ds vs} : At v [] (.obj c ds vs) ↔ v = .obj c ds vs := by
  constructor
  · intro h; cases h; rfl
  · rintro rfl; exact .obj c ds vs

/-- A leaf in a list. -/
theorem at_elem {v y : Val} : At v [.elem] y ↔ ∃ l, v = .list l ∧ ∃ x ∈ l, At x [] y := by
  constructor
  · intro h; cases h with | elem hx h => exact ⟨_, rfl, _, hx, h⟩
  · rintro ⟨l, rfl, x, hx, h⟩; exact .elem hx h

/-- A leaf in a dict. -/
theorem at_value {v y : Val} {p : List Step} :
    At v (.value :: p) y ↔ ∃ ks l, v = .dict ks l ∧ ∃ x ∈ l, At x p y := by
  constructor
  · intro h; cases h with | value hx h => exact ⟨_, _, rfl, _, hx, h⟩
  · rintro ⟨ks, l, rfl, x, hx, h⟩; exact .value hx h

/-- What a field contributes, by places. -/
theorem mem_fieldValues (d : Decl) (v : Val) (s : Scalar) :
    s ∈ fieldValues d v ↔
      (d.isExpr = true ∧ ∃ p ∈ places, At v p (.scalar s)) ∨
      (∃ p ∈ places, ∃ o, At v p o ∧ Inner o s ∧
        ((d.isExpr = true ∧ p ≠ []) ∨ (d.isExpr = false ∧ d.ann.hasModel = true))) := by
  have pl : ∀ P : List Step → Prop, (∃ p ∈ places, P p) ↔ P [] ∨ P [.elem] ∨ P [.value] ∨ P [.value, .elem] := by
    intro P; simp [places]
  rw [pl, pl]
  cases v with
  | none =>
    simp only [fieldValues, List.not_mem_nil, false_iff]
    rintro (⟨_, h | h | h | h⟩ | ⟨o, h, hi, _⟩ | ⟨o, h, _⟩ | ⟨o, h, _⟩ | ⟨o, h, _⟩) <;>
      cases h
    obtain ⟨_, _, _, h, _⟩ := hi
    cases h
  | other n =>
    simp only [fieldValues, List.not_mem_nil, false_iff]
    rintro (⟨_, h | h | h | h⟩ | ⟨o, h, hi, _⟩ | ⟨o, h, _⟩ | ⟨o, h, _⟩ | ⟨o, h, _⟩) <;>
      cases h
    obtain ⟨_, _, _, h, _⟩ := hi
    cases h
  | scalar t =>
    simp only [fieldValues]
    constructor
    · intro h
      split at h
      · rename_i he
        rw [List.mem_singleton] at h
        subst h
        exact Or.inl ⟨he, Or.inl (.scalar s)⟩
      · cases h
    · rintro (⟨he, h | h | h | h⟩ | ⟨o, h, hi, _⟩ | ⟨o, h, _⟩ | ⟨o, h, _⟩ | ⟨o, h, _⟩) <;>
        cases h
      · rw [if_pos he]; exact List.mem_singleton.2 rfl
      · obtain ⟨_, _, _, h, _⟩ := hi
        cases h
  | list l =>
    simp only [fieldValues]
    cases he : d.isExpr with
    | true =>
      rw [if_pos rfl, mem_items]
      constructor
      · rintro ⟨x, hx, rfl | hi⟩
        · exact Or.inl ⟨rfl, Or.inr (Or.inl (.elem hx (.scalar s)))⟩
        · obtain ⟨c, ds, vs, rfl, hc⟩ := hi
          exact Or.inr (Or.inr (Or.inl ⟨_, .elem hx (.obj c ds vs), ⟨c, ds, vs, rfl, hc⟩,
            Or.inl ⟨rfl, by simp⟩⟩))
      · rintro (⟨_, h | h | h | h⟩ | ⟨o, h, _, _⟩ | ⟨o, h, hi, _⟩ | ⟨o, h, _⟩ | ⟨o, h, _⟩)
        · cases h
        · cases h with | elem hx h => exact ⟨_, hx, Or.inl (at_scalar.1 h)⟩
        · cases h
        · cases h
        · cases h
        · cases h with | elem hx h => exact ⟨_, hx, Or.inr (at_nil h ▸ hi)⟩
        · cases h
        · cases h
    | false =>
      rw [if_neg (by simp)]
      constructor
      · intro h
        split at h
        · rename_i hm
          rw [mem_models] at h
          obtain ⟨x, hx, hi⟩ := h
          have hi' := hi
          obtain ⟨c, ds, vs, rfl, hc⟩ := hi'
          exact Or.inr (Or.inr (Or.inl ⟨_, .elem hx (.obj c ds vs), hi, Or.inr ⟨rfl, hm⟩⟩))
        · cases h
      · rintro (⟨h, _⟩ | ⟨o, h, _, _⟩ | ⟨o, h, hi, hd⟩ | ⟨o, h, _⟩ | ⟨o, h, _⟩)
        · cases h
        · cases h
        · rcases hd with ⟨h', _⟩ | ⟨_, hm⟩
          · cases h'
          · rw [if_pos hm, mem_models]
            cases h with | elem hx h => exact ⟨_, hx, at_nil h ▸ hi⟩
        · cases h
        · cases h
  | dict ks l =>
    simp only [fieldValues]
    cases he : d.isExpr with
    | true =>
      rw [if_pos rfl, mem_entries]
      constructor
      · rintro ⟨x, hx, rfl | hi | ⟨l', rfl, y, hy, rfl | hi⟩⟩
        · exact Or.inl ⟨rfl, Or.inr (Or.inr (Or.inl (.value hx (.scalar s))))⟩
        · have hi' := hi
          obtain ⟨c, ds, vs, rfl, hc⟩ := hi'
          exact Or.inr (Or.inr (Or.inr (Or.inl ⟨_, .value hx (.obj c ds vs), hi, Or.inl ⟨rfl, by simp⟩⟩)))
        · exact Or.inl ⟨rfl, Or.inr (Or.inr (Or.inr (.value hx (.elem hy (.scalar s)))))⟩
        · have hi' := hi
          obtain ⟨c, ds, vs, rfl, hc⟩ := hi'
          exact Or.inr (Or.inr (Or.inr (Or.inr ⟨_, .value hx (.elem hy (.obj c ds vs)), hi, Or.inl ⟨rfl, by simp⟩⟩)))
      · rintro (⟨_, h | h | h | h⟩ | ⟨o, h, _, _⟩ | ⟨o, h, hi, _⟩ | ⟨o, h, hi, _⟩ | ⟨o, h, hi, _⟩)
        · cases h
        · cases h
        · cases h with | value hx h => exact ⟨_, hx, Or.inl (at_scalar.1 h)⟩
        · cases h with
          | value hx h =>
            cases h with | elem hy h => exact ⟨_, hx, Or.inr (Or.inr ⟨_, rfl, _, hy, Or.inl (at_scalar.1 h)⟩)⟩
        · cases h
        · cases h
        · cases h with | value hx h => exact ⟨_, hx, Or.inr (Or.inl (at_nil h ▸ hi))⟩
        · cases h with
          | value hx h =>
            cases h with | elem hy h => exact ⟨_, hx, Or.inr (Or.inr ⟨_, rfl, _, hy, Or.inr (at_nil h ▸ hi)⟩)⟩
    | false =>
      rw [if_neg (by simp)]
      constructor
      · intro h
        split at h
        · rename_i hm
          rw [mem_modelEntries] at h
          obtain ⟨x, hx, hi | ⟨l', rfl, y, hy, hi⟩⟩ := h
          · have hi' := hi
            obtain ⟨c, ds, vs, rfl, hc⟩ := hi'
            exact Or.inr (Or.inr (Or.inr (Or.inl ⟨_, .value hx (.obj c ds vs), hi, Or.inr ⟨rfl, hm⟩⟩)))
          · have hi' := hi
            obtain ⟨c, ds, vs, rfl, hc⟩ := hi'
            exact Or.inr (Or.inr (Or.inr (Or.inr ⟨_, .value hx (.elem hy (.obj c ds vs)), hi, Or.inr ⟨rfl, hm⟩⟩)))
        · cases h
      · rintro (⟨h, _⟩ | ⟨o, h, _, _⟩ | ⟨o, h, _⟩ | ⟨o, h, hi, hd⟩ | ⟨o, h, hi, hd⟩)
        · cases h
        · cases h
        · cases h
        · rcases hd with ⟨h', _⟩ | ⟨_, hm⟩
          · cases h'
          · rw [if_pos hm, mem_modelEntries]
            cases h with | value hx h => exact ⟨_, hx, Or.inl (at_nil h ▸ hi)⟩
        · rcases hd with ⟨h', _⟩ | ⟨_, hm⟩
          · cases h'
          · rw [if_pos hm, mem_modelEntries]
            cases h with
            | value hx h => cases h with | elem hy h => exact ⟨_, hx, Or.inr ⟨_, rfl, _, hy, at_nil h ▸ hi⟩⟩
  | obj c ds vs =>
    simp only [fieldValues]
    constructor
    · intro h
      split at h
      · cases h
      · rename_i he
        split at h
        · rename_i hm
          exact Or.inr (Or.inl ⟨_, .obj c ds vs, ⟨c, ds, vs, rfl, h⟩,
            Or.inr ⟨by simpa using he, hm⟩⟩)
        · cases h
    · rintro (⟨_, h | h | h | h⟩ | ⟨o, h, hi, hd⟩ | ⟨o, h, _⟩ | ⟨o, h, _⟩ | ⟨o, h, _⟩) <;> cases h
      rcases hd with ⟨_, h'⟩ | ⟨he, hm⟩
      · exact absurd rfl h'
      · rw [if_neg (by simp [he]), if_pos hm]
        obtain ⟨c', ds', vs', h', hc⟩ := hi
        injection h' with _ h1 h2
        subst h1 h2
        exact hc

/-- What a model contributes. -/
theorem mem_collect (ds : List Decl) (vs : List Val) (s : Scalar) :
    s ∈ collect ds vs ↔ ∃ d v, (d, v) ∈ ds.zip vs ∧ s ∈ fieldValues d v := by
  induction ds generalizing vs with
  | nil => simp [collect]
  | cons d ds ih =>
    cases vs with
    | nil => simp [collect]
    | cons v vs =>
      simp only [collect, List.mem_append, ih, List.zip_cons_cons, List.mem_cons]
      constructor
      · rintro (h | ⟨d', v', h, h'⟩)
        · exact ⟨d, v, Or.inl rfl, h⟩
        · exact ⟨d', v', Or.inr h, h'⟩
      · rintro ⟨d', v', h | h, h'⟩
        · cases h; exact Or.inl h'
        · exact Or.inr ⟨d', v', h, h'⟩

theorem at_size {v y : Val} {p : List Step} (h : At v p y) : sizeOf y ≤ sizeOf v := by
  induction h with
  | scalar | other | none | obj => exact Nat.le_refl _
  | elem hx _ ih => have := List.sizeOf_lt_of_mem hx; simp only [Val.list.sizeOf_spec]; omega
  | value hx _ ih => have := List.sizeOf_lt_of_mem hx; simp only [Val.dict.sizeOf_spec]; omega

theorem zip_size {c : String} {ds : List Decl} {vs : List Val} {d : Decl} {v : Val} (h : (d, v) ∈ ds.zip vs) :
    sizeOf v < sizeOf (Val.obj c ds vs) := by
  have := List.sizeOf_lt_of_mem (List.of_mem_zip h).2
  simp only [Val.obj.sizeOf_spec]
  omega

theorem proper_inside {c : String} {ds : List Decl} {vs : List Val} {d : Decl} {v o : Val} {p : List Step}
    (hm : Proper (.obj c ds vs)) (hz : (d, v) ∈ ds.zip vs) (ha : At v p o) : Proper o :=
  fun _ _ _ hw => hm _ _ _ (.inside hz ha hw)

theorem occurs_of_collect : ∀ (n : Nat) (c : String) (ds : List Decl) (vs : List Val),
    sizeOf (Val.obj c ds vs) ≤ n → Proper (.obj c ds vs) → ∀ s, s ∈ collect ds vs → Occurs (.obj c ds vs) s := by
  intro n
  induction n with
  | zero => intro c ds vs h; simp at h
  | succ n ih =>
    intro c ds vs hn hm s hs
    obtain ⟨d, v, hz, hf⟩ := (mem_collect ds vs s).1 hs
    obtain ⟨hr, hfit⟩ := hm _ _ _ (.self c ds vs) d v hz
    rcases (mem_fieldValues d v s).1 hf with ⟨he, p, hp, ha⟩ | ⟨p, hp, o, ha, ⟨c', ds', vs', rfl, hc⟩, _⟩
    · obtain ⟨q, hq⟩ := (isExpr_iff d).1 he
      rcases (hfit p _ ha).1 s rfl with h | h
      · exact .here hz ha h
      · exact .here hz ha (hr.text q p hp hq h)
    · refine .inside hz ha ((hfit p _ ha).2 _ _ _ rfl) (ih _ _ _ ?_ (proper_inside hm hz ha) s hc)
      have h1 := at_size ha
      have h2 := zip_size (c := c) hz
      omega

theorem collect_of_occurs {m : Val} {s : Scalar} (h : Occurs m s) (hm : Proper m) : Inner m s := by
  induction h with
  | @here c ds vs d v p s hz ha hf =>
    obtain ⟨hr, _⟩ := hm _ _ _ (.self c ds vs) d v hz
    exact ⟨c, ds, vs, rfl, (mem_collect ds vs s).2 ⟨d, v, hz, (mem_fieldValues d v s).2
      (Or.inl ⟨(isExpr_iff d).2 ⟨p, hf⟩, p, hr.near p _ (Or.inl rfl) hf, ha⟩)⟩⟩
  | @inside c ds vs d v p o s hz ha hf _ ih =>
    obtain ⟨hr, _⟩ := hm _ _ _ (.self c ds vs) d v hz
    have hi := ih (proper_inside hm hz ha)
    refine ⟨c, ds, vs, rfl, (mem_collect ds vs s).2 ⟨d, v, hz, (mem_fieldValues d v s).2
      (Or.inr ⟨p, hr.near p _ (Or.inr rfl) hf, o, ha, hi, ?_⟩)⟩⟩
    cases he : d.isExpr with
    | false => exact Or.inr ⟨rfl, (hasModel_iff d.ann).2 ⟨p, (field_model d p).1 hf⟩⟩
    | true =>
      refine Or.inl ⟨rfl, ?_⟩
      rintro rfl
      obtain ⟨q, hq⟩ := (isExpr_iff d).1 he
      exact hr.single q hq hf

theorem mem_update (s l : List String) (r : String) : r ∈ update s l ↔ r ∈ s ∨ r ∈ l := by
  unfold update
  induction l generalizing s with
  | nil => simp
  | cons x l ih =>
    rw [List.foldl_cons, ih]
    split
    · rename_i h
      constructor
      · rintro (h' | h')
        · exact Or.inl h'
        · exact Or.inr (List.mem_cons_of_mem _ h')
      · rintro (h' | h')
        · exact Or.inl h'
        · rcases List.mem_cons.1 h' with rfl | h'
          · exact Or.inl h
          · exact Or.inr h'
    · simp only [List.mem_append, List.mem_cons, List.not_mem_nil, or_false]
      exact or_assoc

theorem nodup_update (s l : List String) (h : s.Nodup) : (update s l).Nodup := by
  unfold update
  induction l generalizing s with
  | nil => exact h
  | cons x l ih =>
    rw [List.foldl_cons]
    apply ih
    split
    · exact h
    · rename_i hx
      exact List.nodup_append.2 ⟨h, by simp, by
        intro a ha b hb
        rw [List.mem_singleton] at hb
        rintro rfl
        exact hx (hb ▸ ha)⟩

theorem gather_ok (names : Scalar → Option (List String)) (es : List Scalar) (s t : List String)
    (hs : s.Nodup) (h : gather names s es = .ok t) :
    t.Nodup ∧ ∀ r, r ∈ t ↔ r ∈ s ∨ ∃ e ∈ es, ∃ l, names e = some l ∧ r ∈ l := by
  induction es generalizing s with
  | nil =>
    rw [gather] at h
    cases Except.ok.inj h
    exact ⟨hs, by simp⟩
  | cons e es ih =>
    rw [gather] at h
    cases hl : names e with
    | none => rw [hl] at h; cases h
    | some l =>
      rw [hl] at h
      obtain ⟨h1, h2⟩ := ih _ (nodup_update s l hs) h
      refine ⟨h1, fun r => ?_⟩
      rw [h2, mem_update, or_assoc]
      simp only [ex_cons, hl, Option.some.injEq, exists_eq_left']

theorem gather_error (names : Scalar → Option (List String)) (es : List Scalar) (s : List String) (e : Err) :
    gather names s es = .error e ↔ e = .invalidExpression ∧ ∃ x ∈ es, names x = none := by
  induction es generalizing s with
  | nil => simp [gather]
  | cons x es ih =>
    rw [gather]
    cases hl : names x with
    | none =>
      simp only [ex_cons, hl, true_or, and_true]
      exact ⟨fun h => (Except.error.inj h).symm, fun h => by rw [h]⟩
    | some l =>
      simp only [ex_cons, hl, reduceCtorEq, false_or]
      exact ih _

end

/-! ### Theorems -/

/-- In a model made of such classes the references found are those of the expressions of the model, each once; an
expression that cannot be read is an error, and nothing else is. -/
theorem C111_references (names : Scalar → Option (List String)) (c : String) (ds : List Decl) (vs : List Val)
    (hm : Proper (.obj c ds vs)) :
    (∀ t, references names ds vs = .ok t → t.Nodup ∧
      ∀ r, r ∈ t ↔ ∃ e l, Occurs (.obj c ds vs) e ∧ names e = some l ∧ r ∈ l) ∧
    (∀ e, references names ds vs = .error e ↔
      e = .invalidExpression ∧ ∃ x, Occurs (.obj c ds vs) x ∧ names x = none) := by
  have key : ∀ s, s ∈ collect ds vs ↔ Occurs (.obj c ds vs) s := by
    intro s
    constructor
    · exact occurs_of_collect _ c ds vs (Nat.le_refl _) hm s
    · intro h
      obtain ⟨c', ds', vs', h', hc⟩ := collect_of_occurs h hm
      injection h' with _ h1 h2
      subst h1 h2
      exact hc
  constructor
  · intro t ht
    obtain ⟨h1, h2⟩ := gather_ok names _ [] t List.nodup_nil ht
    refine ⟨h1, fun r => ?_⟩
    rw [h2]
    simp only [List.not_mem_nil, false_or, key]
    exact ⟨fun ⟨e, he, l, hl⟩ => ⟨e, l, he, hl⟩, fun ⟨e, l, he, hl⟩ => ⟨e, he, l, hl⟩⟩
  · intro e
    unfold references
    rw [gather_error]
    simp only [key]

/-- Whatever the classes: every reference comes from a string or number in a field, of the model or of a model inside
it, whose annotation allows expressions somewhere. -/
theorem C111_only (names : Scalar → Option (List String)) (c : String) (ds : List Decl) (vs : List Val)
    (t : List String) (h : references names ds vs = .ok t) (r : String) (hr : r ∈ t) :
    ∃ c' ds' vs' d v p q s l, Within (.obj c ds vs) (.obj c' ds' vs') ∧ (d, v) ∈ ds'.zip vs' ∧
      Field d q .expr ∧ At v p (.scalar s) ∧ names s = some l ∧ r ∈ l := by
  obtain ⟨e, he, l, hl, hrl⟩ : ∃ e ∈ collect ds vs, ∃ l, names e = some l ∧ r ∈ l := by
    have := ((gather_ok names _ [] t List.nodup_nil h).2 r).1 hr
    simpa using this
  suffices H : ∀ (n : Nat) (c : String) (ds : List Decl) (vs : List Val), sizeOf (Val.obj c ds vs) ≤ n →
      e ∈ collect ds vs → ∃ c' ds' vs' d v p q, Within (.obj c ds vs) (.obj c' ds' vs') ∧ (d, v) ∈ ds'.zip vs' ∧
        Field d q .expr ∧ At v p (.scalar e) by
    obtain ⟨c', ds', vs', d, v, p, q, h1, h2, h3, h4⟩ := H _ c ds vs (Nat.le_refl _) he
    exact ⟨c', ds', vs', d, v, p, q, e, l, h1, h2, h3, h4, hl, hrl⟩
  intro n
  induction n with
  | zero => intro c ds vs h; simp at h
  | succ n ih =>
    intro c ds vs hn hs
    obtain ⟨d, v, hz, hf⟩ := (mem_collect ds vs e).1 hs
    rcases (mem_fieldValues d v e).1 hf with ⟨he', p, hp, ha⟩ | ⟨p, hp, o, ha, ⟨c', ds', vs', rfl, hc⟩, _⟩
    · obtain ⟨q, hq⟩ := (isExpr_iff d).1 he'
      exact ⟨c, ds, vs, d, v, p, q, .self c ds vs, hz, hq, ha⟩
    · have h1 := at_size ha
      have h2 := zip_size (c := c) hz
      obtain ⟨c2, ds2, vs2, d2, v2, p2, q2, hw, hz2, hq, ha2⟩ := ih c' ds' vs' (by omega) hc
      exact ⟨c2, ds2, vs2, d2, v2, p2, q2, .inside hz ha hw, hz2, hq, ha2⟩

/-- FINDING. A field `YamlExpressionType | Model` with a model: the expressions of the model are not found, although
they are expressions of the model by its annotations. -/
theorem C111_single : ∃ (ds : List Decl) (vs : List Val) (s : Scalar),
    Occurs (.obj "M" ds vs) s ∧ (∀ d v, (d, v) ∈ ds.zip vs → Fits d v) ∧
      ∀ names, references names ds vs = .ok [] := by
  refine ⟨[⟨"f", false, .union [.expr, .model]⟩], [.obj "N" [⟨"g", true, .plain⟩] [.scalar (.str "SIM;X")]],
    .str "SIM;X", ?_, ?_, ?_⟩
  · refine .inside (d := ⟨"f", false, .union [.expr, .model]⟩) List.mem_cons_self (.obj _ _ _)
      (Or.inr (.union (a := .model) (by simp) .model)) ?_
    exact .here (d := ⟨"g", true, .plain⟩) List.mem_cons_self (.scalar _) (Or.inl ⟨rfl, rfl, rfl⟩)
  · intro d v h
    simp only [List.zip_cons_cons, List.zip_nil_right, List.mem_singleton, Prod.mk.injEq] at h
    obtain ⟨rfl, rfl⟩ := h
    intro p y ha
    cases ha
    exact ⟨fun s h => (by cases h), fun _ _ _ _ => Or.inr (.union (a := .model) (by simp) .model)⟩
  · intro names; rfl

/-- FINDING. A list of lists of expressions: nothing is found. -/
theorem C111_nested : ∃ (ds : List Decl) (vs : List Val) (s : Scalar),
    Occurs (.obj "M" ds vs) s ∧ (∀ d v, (d, v) ∈ ds.zip vs → Fits d v) ∧
      ∀ names, references names ds vs = .ok [] := by
  refine ⟨[⟨"f", false, .list (.list .expr)⟩], [.list [.list [.scalar (.str "SIM;X")]]], .str "SIM;X", ?_, ?_, ?_⟩
  · exact .here (d := ⟨"f", false, .list (.list .expr)⟩) List.mem_cons_self
      (.elem (List.mem_singleton.2 rfl) (.elem (List.mem_singleton.2 rfl) (.scalar _))) (Or.inr (.list (.list .expr)))
  · intro d v h
    simp only [List.zip_cons_cons, List.zip_nil_right, List.mem_singleton, Prod.mk.injEq] at h
    obtain ⟨rfl, rfl⟩ := h
    intro p y ha
    cases ha with
    | elem hx ha =>
      rw [List.mem_singleton] at hx; subst hx
      cases ha with
      | elem hx ha =>
        rw [List.mem_singleton] at hx; subst hx
        cases ha
        exact ⟨fun _ _ => Or.inl (Or.inr (.list (.list .expr))), fun _ _ _ h => (by cases h)⟩
  · intro names; rfl

/-- FINDING. A field `YamlExpressionType | list[str]` with a list of names: the names are taken for expressions. -/
theorem C111_text : ∃ (ds : List Decl) (vs : List Val),
    (∀ s, ¬ Occurs (.obj "M" ds vs) s) ∧ (∀ d v, (d, v) ∈ ds.zip vs → Fits d v) ∧
      references (fun | .str s => some [s] | _ => some []) ds vs = .ok ["NAME"] := by
  refine ⟨[⟨"f", false, .union [.expr, .list .plain]⟩], [.list [.scalar (.str "NAME")]], ?_, ?_, rfl⟩
  · intro s h
    cases h with
    | here hz ha hf =>
      simp only [List.zip_cons_cons, List.zip_nil_right, List.mem_singleton, Prod.mk.injEq] at hz
      obtain ⟨rfl, rfl⟩ := hz
      cases ha with
      | elem hx ha =>
        rw [List.mem_singleton] at hx; subst hx
        cases ha
        rcases hf with ⟨h, _⟩ | h
        · cases h
        · cases h with
          | union ha h =>
            simp only [List.mem_cons, List.not_mem_nil, or_false] at ha
            rcases ha with rfl | rfl
            · cases h
            · cases h with | list h => cases h
    | inside hz ha _ ho =>
      simp only [List.zip_cons_cons, List.zip_nil_right, List.mem_singleton, Prod.mk.injEq] at hz
      obtain ⟨rfl, rfl⟩ := hz
      cases ha with
      | elem hx ha =>
        rw [List.mem_singleton] at hx; subst hx
        cases ha
        cases ho
  · intro d v h
    simp only [List.zip_cons_cons, List.zip_nil_right, List.mem_singleton, Prod.mk.injEq] at h
    obtain ⟨rfl, rfl⟩ := h
    intro p y ha
    cases ha with
    | elem hx ha =>
      rw [List.mem_singleton] at hx; subst hx
      cases ha
      exact ⟨fun _ _ => Or.inr (Or.inr (.union (a := .list .plain) (by simp) (.list .plain))),
        fun _ _ _ h => (by cases h)⟩

/-! ### Examples -/

section

mutual

/-- The kinds of leaves an annotation allows, computed. -/
def allowed : Ann → List (List Step × Kind)
  | .plain => [([], .text)]
  | .ref => [([], .text)]
  | .nothing => [([], .nothing)]
  | .expr => [([], .expr)]
  | .model => [([], .model)]
  | .union as => allowedAny as
  | .list a => (allowed a).map fun x => (.elem :: x.1, x.2)
  | .dict k v => (allowed k).map (fun x => (.key :: x.1, x.2)) ++ (allowed v).map (fun x => (.value :: x.1, x.2))
  | .annotated a => allowed a

/-- The same for the members of a union. -/
def allowedAny : List Ann → List (List Step × Kind)
  | [] => []
  | a :: as => allowed a ++ allowedAny as

end

mutual

theorem allowed_of (a : Ann) (p : List Step) (k : Kind) (h : Allows a p k) : (p, k) ∈ allowed a := by
  cases a with
  | plain => cases h; simp [allowed]
  | nothing => cases h; simp [allowed]
  | ref => cases h; simp [allowed]
  | expr => cases h; simp [allowed]
  | model => cases h; simp [allowed]
  | union as => cases h with | union ha h => rw [allowed]; exact allowedAny_of as p k _ ha h
  | list a =>
    cases h with
    | list h => rw [allowed]; exact List.mem_map.2 ⟨_, allowed_of a _ k h, rfl⟩
  | dict x y =>
    rw [allowed]
    cases h with
    | value h => exact List.mem_append.2 (Or.inr (List.mem_map.2 ⟨_, allowed_of y _ k h, rfl⟩))
    | key h => exact List.mem_append.2 (Or.inl (List.mem_map.2 ⟨_, allowed_of x _ k h, rfl⟩))
  | annotated a => cases h with | annotated h => rw [allowed]; exact allowed_of a p k h

theorem allowedAny_of (as : List Ann) (p : List Step) (k : Kind) (a : Ann) (ha : a ∈ as) (h : Allows a p k) :
    (p, k) ∈ allowedAny as := by
  cases as with
  | nil => cases ha
  | cons b bs =>
    rw [allowedAny]
    by_cases hb : a = b
    · subst hb; exact List.mem_append.2 (Or.inl (allowed_of a p k h))
    · exact List.mem_append.2 (Or.inr (allowedAny_of bs p k a
        ((List.mem_cons.1 ha).resolve_left hb) h))

end

mutual

theorem allows_of (a : Ann) (p : List Step) (k : Kind) (h : (p, k) ∈ allowed a) : Allows a p k := by
  cases a with
  | plain => simp only [allowed, List.mem_singleton, Prod.mk.injEq] at h; obtain ⟨rfl, rfl⟩ := h; exact .plain
  | nothing => simp only [allowed, List.mem_singleton, Prod.mk.injEq] at h; obtain ⟨rfl, rfl⟩ := h; exact .nothing
  | ref => simp only [allowed, List.mem_singleton, Prod.mk.injEq] at h; obtain ⟨rfl, rfl⟩ := h; exact .ref
  | expr => simp only [allowed, List.mem_singleton, Prod.mk.injEq] at h; obtain ⟨rfl, rfl⟩ := h; exact .expr
  | model => simp only [allowed, List.mem_singleton, Prod.mk.injEq] at h; obtain ⟨rfl, rfl⟩ := h; exact .model
  | union as =>
    rw [allowed] at h
    obtain ⟨a, ha, h⟩ := allowsAny_of as p k h
    exact .union ha h
  | list a =>
    rw [allowed] at h
    obtain ⟨⟨q, j⟩, hq, hx⟩ := List.mem_map.1 h
    cases hx
    exact .list (allows_of a q _ hq)
  | dict x y =>
    rw [allowed] at h
    rcases List.mem_append.1 h with h | h
    · obtain ⟨⟨q, j⟩, hq, hx⟩ := List.mem_map.1 h
      cases hx
      exact .key (allows_of x q _ hq)
    · obtain ⟨⟨q, j⟩, hq, hx⟩ := List.mem_map.1 h
      cases hx
      exact .value (allows_of y q _ hq)
  | annotated a => rw [allowed] at h; exact .annotated (allows_of a p k h)

theorem allowsAny_of (as : List Ann) (p : List Step) (k : Kind) (h : (p, k) ∈ allowedAny as) :
    ∃ a ∈ as, Allows a p k := by
  cases as with
  | nil => rw [allowedAny] at h; cases h
  | cons b bs =>
    rw [allowedAny] at h
    rcases List.mem_append.1 h with h | h
    · exact ⟨b, List.mem_cons_self, allows_of b p k h⟩
    · obtain ⟨a, ha, h⟩ := allowsAny_of bs p k h
      exact ⟨a, List.mem_cons_of_mem _ ha, h⟩

end

/-- The kinds of leaves a field allows, computed. -/
def fieldAllowed (d : Decl) : List (List Step × Kind) := (if d.marked then [([], .expr)] else []) ++ allowed d.ann

theorem field_iff (d : Decl) (p : List Step) (k : Kind) : Field d p k ↔ (p, k) ∈ fieldAllowed d := by
  unfold Field fieldAllowed
  constructor
  · rintro (⟨h, rfl, rfl⟩ | h)
    · rw [if_pos h]; exact List.mem_append.2 (Or.inl (List.mem_singleton.2 rfl))
    · exact List.mem_append.2 (Or.inr (allowed_of _ _ _ h))
  · intro h
    rcases List.mem_append.1 h with h | h
    · split at h
      · rename_i hm
        simp only [List.mem_singleton, Prod.mk.injEq] at h
        exact Or.inl ⟨hm, h⟩
      · cases h
    · exact Or.inr (allows_of _ _ _ h)

/-- The conditions on a class, computed. -/
def regularCheck (d : Decl) : Bool :=
  let l := fieldAllowed d
  l.all (fun x => (x.2 != .expr && x.2 != .model) || decide (x.1 ∈ places)) &&
  (l.all (fun x => x.2 != .expr) || (!decide (([], Kind.model) ∈ l) &&
    l.all (fun x => x.2 != .text || !decide (x.1 ∈ places) || decide ((x.1, Kind.expr) ∈ l))))

theorem regular_of (d : Decl) (h : regularCheck d = true) : Regular d := by
  unfold regularCheck at h
  simp only [Bool.and_eq_true, Bool.or_eq_true, List.all_eq_true, Bool.not_eq_true', decide_eq_false_iff_not,
    decide_eq_true_eq, bne_iff_ne, ne_eq] at h
  obtain ⟨h1, h2⟩ := h
  refine ⟨?_, ?_, ?_⟩
  · intro p k hk hf
    rcases h1 _ ((field_iff d p k).1 hf) with ⟨a, b⟩ | h
    · rcases hk with rfl | rfl
      · exact absurd rfl a
      · exact absurd rfl b
    · exact h
  · intro p hf hm
    rcases h2 with h | h
    · exact h _ ((field_iff d p _).1 hf) rfl
    · exact h.1 ((field_iff d _ _).1 hm)
  · intro p q hp hf ht
    rcases h2 with h | h
    · exact absurd rfl (h _ ((field_iff d p _).1 hf))
    · rcases h.2 _ ((field_iff d q _).1 ht) with h' | h'
      · rcases h' with h' | h'
        · exact absurd rfl h'
        · exact absurd hp h'
      · exact (field_iff d q _).2 h'

/-- The class of `YamlInletStreamRate`: an expression, a list of conditions, a unit. -/
def rateFields : List Decl :=
  [⟨"value", true, .plain⟩, ⟨"conditions", false, .union [.list .expr, .nothing]⟩, ⟨"unit", false, .plain⟩]

/-- A class with a temporal model of expressions, a list of models, and lists of models in a dict. -/
def topFields : List Decl :=
  [⟨"regularity", false, .union [.annotated .expr, .annotated (.dict .plain .expr)]⟩,
   ⟨"rates", false, .list .model⟩, ⟨"constraints", false, .dict .plain (.list .model)⟩]

/-- Every field of these classes is regular. -/
theorem example_regular : ∀ d ∈ rateFields ++ topFields, Regular d := by
  intro d hd
  apply regular_of
  revert d
  decide +kernel

def rate (x y : String) : Val :=
  .obj "Rate" rateFields [.scalar (.str x), .list [.scalar (.str y), .scalar (.num 1)], .scalar (.str "SM3")]

def top : List Val :=
  [.dict ["2020"] [.scalar (.str "A")], .list [rate "B" "C"], .dict ["p"] [.list [rate "B" "D"]]]

/-- The walk over it: the unit is not an expression. -/
example : references (fun | .str s => some [s] | _ => some []) topFields top = .ok ["A", "B", "C", "D"] := by
  decide +kernel

/-- `D` is an expression of the model, far inside. -/
example : Occurs (.obj "Top" topFields top) (.str "D") := by
  refine .inside (d := ⟨"constraints", false, .dict .plain (.list .model)⟩) (List.mem_cons_of_mem _
    (List.mem_cons_of_mem _ List.mem_cons_self)) (.value List.mem_cons_self (.elem List.mem_cons_self (.obj _ _ _)))
    (Or.inr (.value (.list .model))) ?_
  exact .here (d := ⟨"conditions", false, .union [.list .expr, .nothing]⟩)
    (List.mem_cons_of_mem _ List.mem_cons_self) (.elem List.mem_cons_self (.scalar _))
    (Or.inr (.union List.mem_cons_self (.list .expr)))

/-- The field `YamlExpressionType | Model` is not regular: it is the single model that is lost. -/
example : ¬ Regular ⟨"f", false, .union [.expr, .model]⟩ := fun h =>
  h.single [] (Or.inr (.union List.mem_cons_self .expr))
    (Or.inr (.union (List.mem_cons_of_mem _ List.mem_cons_self) .model))

/-- A model that is proper, so `C111_references` speaks about it. -/
theorem rate_fits (x y : String) : Proper (rate x y) := by
  have leaf : ∀ s p z, At (.scalar s) p z → p = [] ∧ z = .scalar s := by
    intro s p z h; cases h; exact ⟨rfl, rfl⟩
  intro c ds vs hw
  have hobj : Val.obj c ds vs = rate x y := by
    unfold rate at hw ⊢
    cases hw with
    | self => rfl
    | inside hz ha hin =>
      exfalso
      simp only [rateFields, List.zip_cons_cons, List.zip_nil_right, List.mem_cons, List.not_mem_nil, or_false,
        Prod.mk.injEq] at hz
      rcases hz with ⟨rfl, rfl⟩ | ⟨rfl, rfl⟩ | ⟨rfl, rfl⟩
      · cases ha; cases hin
      · cases ha with
        | elem hx ha =>
          simp only [List.mem_cons, List.not_mem_nil, or_false] at hx
          rcases hx with rfl | rfl <;> cases ha <;> cases hin
      · cases ha; cases hin
  unfold rate at hobj
  injection hobj with _ h1 h2
  subst h1 h2
  intro d v hz
  refine ⟨example_regular d (List.mem_append.2 (Or.inl (List.of_mem_zip hz).1)), ?_⟩
  simp only [rateFields, List.zip_cons_cons, List.zip_nil_right, List.mem_cons, List.not_mem_nil, or_false,
    Prod.mk.injEq] at hz
  intro p z ha
  rcases hz with ⟨rfl, rfl⟩ | ⟨rfl, rfl⟩ | ⟨rfl, rfl⟩
  · obtain ⟨rfl, rfl⟩ := leaf _ _ _ ha
    exact ⟨fun _ _ => Or.inl (Or.inl ⟨rfl, rfl, rfl⟩), fun _ _ _ h => (by cases h)⟩
  · cases ha with
    | elem hx ha =>
      simp only [List.mem_cons, List.not_mem_nil, or_false] at hx
      rcases hx with rfl | rfl <;> obtain ⟨rfl, rfl⟩ := leaf _ _ _ ha <;>
        exact ⟨fun _ _ => Or.inl (Or.inr (.union List.mem_cons_self (.list .expr))), fun _ _ _ h => (by cases h)⟩
  · obtain ⟨rfl, rfl⟩ := leaf _ _ _ ha
    exact ⟨fun _ _ => Or.inr (Or.inr .plain), fun _ _ _ h => (by cases h)⟩

end

end Verif.C111
