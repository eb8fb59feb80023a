import Verif.Model.Collections
import Verif.Props.C114
import Verif.Props.C15
import Verif.Props.C16

/-!
# C115: from the time series of a model to its variables

Of the collections with a name the last whose file exists is in effect. `NAME;COLUMN` finds the column of the collection in
effect, sorted by date; nothing else is found. The variables of the model are exactly the columns of the collections in
effect, each with the value that its rows, the interpolation and the extrapolation of its collection give at the start of
every period.
-/

namespace Verif.C115
open Verif.Time Verif.InputSeries Verif.Collections
open Verif.C114 (Split Final split_iff split_none split_head split_alone split_at split_ne)
open Verif.C16 (Fitted)

/-! ## Specification -/

/-- The collection `y` with the file `f` is the one the name stands for. -/
def InEffect (ys : List Yaml) (rs : List (Text × File)) (name : Text) (y : Yaml) (f : File) : Prop :=
  ∃ pre post, ys = pre ++ y :: post ∧ y.name = name ∧ rs.lookup y.file = some f ∧
    ∀ y' ∈ post, y'.name = name → rs.lookup y'.file = none

/-- Interpolation and extrapolation of a collection: a DEFAULT collection keeps values until the next date and is zero after
the last; the other says what it wants. -/
inductive Rule : Yaml → Interpolation → Bool → Prop
  | default (n f : Text) (b : Bool) : Rule ⟨n, f, b, none⟩ .right false
  | unsaid (n f : Text) (b : Bool) (i : Interpolation) : Rule ⟨n, f, b, some (i, none)⟩ i false
  | said (n f : Text) (b : Bool) (i : Interpolation) (e : Bool) : Rule ⟨n, f, b, some (i, some e)⟩ i e

/-- The first column whose header is equal up to case. -/
def First (lower : Text → Text) (f : File) (h : Text) (col : List ℚ) : Prop :=
  ∃ pre k post, f.columns = pre ++ (k, col) :: post ∧ lower k = lower h ∧ ∀ e ∈ pre, lower e.1 ≠ lower h

/-- A file that passed its validation (`Verif.Resource`). -/
structure Valid (f : File) : Prop where
  some : f.times ≠ []
  dates : f.times.Nodup
  columns : ∀ c ∈ f.columns, c.2.length = f.times.length
  headers : ∀ h ∈ f.headers, ∃ col, (h, col) ∈ f.columns
  clean : ∀ h ∈ f.headers, ';' ∉ h

/-! ## Dicts -/

theorem lookup_iff {κ β : Type} [BEq κ] [LawfulBEq κ] (l : List (κ × β)) (h : (l.map (·.1)).Nodup) (k : κ) (b : β) :
    l.lookup k = some b ↔ (k, b) ∈ l := by
  induction l with
  | nil => simp
  | cons x l ih =>
    obtain ⟨u, v⟩ := x
    rw [List.map_cons, List.nodup_cons] at h
    by_cases hk : k = u
    · subst hk
      rw [List.lookup_cons_self]
      simp only [Option.some.injEq, List.mem_cons, Prod.mk.injEq, true_and]
      constructor
      · intro e
        exact Or.inl e.symm
      · rintro (e | e)
        · exact e.symm
        · exact absurd (List.mem_map_of_mem (f := (·.1)) e) h.1
    · have : (k == u) = false := by simpa using hk
      rw [List.lookup_cons, this]
      dsimp only
      rw [ih h.2]
      simp [hk]

theorem keys_fold {κ β : Type} [DecidableEq κ] (l acc : List (κ × β)) (t : κ) :
    t ∈ (l.foldl (fun acc e => dictSet e.1 e.2 acc) acc).map (·.1) ↔ t ∈ acc.map (·.1) ∨ t ∈ l.map (·.1) := by
  induction l generalizing acc with
  | nil => simp
  | cons x l ih =>
    rw [List.foldl_cons, ih, Verif.C114.keys_set, List.map_cons, List.mem_cons]
    tauto

theorem final_filterMap {α κ β : Type} (g : α → Option (κ × β)) (ys : List α) (t : κ) (b : β) :
    Final t b (ys.filterMap g) ↔
      Split (fun y post => g y = some (t, b) ∧ ∀ y' ∈ post, ∀ x, g y' = some x → x.1 ≠ t) ys := by
  induction ys with
  | nil => exact ⟨fun h => absurd h (split_none _), fun h => absurd h (split_none _)⟩
  | cons y ys ih =>
    rw [split_iff]
    rcases hy : g y with _ | x
    · rw [List.filterMap_cons_none hy, ih]
      simp
    · rw [List.filterMap_cons_some hy, Final, split_iff]
      refine or_congr ?_ ih
      simp only [Option.some.injEq, List.mem_filterMap, forall_exists_index, and_imp]
      refine and_congr Iff.rfl ⟨fun h y' hy' x hx => h x y' hy' hx, fun h e y' hy' hx => h y' hy' e hx⟩

theorem final_mem {κ β : Type} (l : List (κ × β)) (t : κ) (b : β) (h : Final t b l) : (t, b) ∈ l := by
  obtain ⟨pre, x, post, rfl, rfl, -⟩ := h
  simp

/-- What one collection adds to the dict. -/
def entry (rs : List (Text × File)) (y : Yaml) : Option (Text × Collection) :=
  (rs.lookup y.file).map fun f => (y.name, fromYaml f y)

theorem create_eq (ys : List Yaml) (rs : List (Text × File)) (acc : List (Text × Collection)) :
    ys.foldl (createStep rs) acc = (ys.filterMap (entry rs)).foldl (fun acc e => dictSet e.1 e.2 acc) acc := by
  induction ys generalizing acc with
  | nil => rfl
  | cons y ys ih =>
    rw [List.foldl_cons, ih]
    rcases hy : rs.lookup y.file with _ | f
    · have h₁ : entry rs y = none := by simp [entry, hy]
      rw [List.filterMap_cons_none h₁]
      simp [createStep, hy]
    · have h₁ : entry rs y = some (y.name, fromYaml f y) := by simp [entry, hy]
      rw [List.filterMap_cons_some h₁, List.foldl_cons]
      simp [createStep, hy]

theorem rule_iff (f : File) (y : Yaml) (c : Collection) :
    fromYaml f y = c ↔ ∃ i e, Rule y i e ∧ c = ⟨y.name, f, i, e, y.influence⟩ := by
  obtain ⟨n, fl, b, m⟩ := y
  constructor
  · rintro rfl
    rcases m with _ | ⟨i, _ | e⟩
    · exact ⟨_, _, .default n fl b, rfl⟩
    · exact ⟨_, _, .unsaid n fl b i, rfl⟩
    · exact ⟨_, _, .said n fl b i e, rfl⟩
  · rintro ⟨i, e, hr, rfl⟩
    cases hr <;> rfl

theorem create_spec (ys : List Yaml) (rs : List (Text × File)) :
    ((create ys rs).map (·.1)).Nodup ∧ ∀ name c, (name, c) ∈ create ys rs ↔ Final name c (ys.filterMap (entry rs)) := by
  by_cases h : rs.isEmpty = true
  · have h₁ : create ys rs = [] := by rw [create, if_pos h]
    have h₂ : ys.filterMap (entry rs) = [] := by
      rw [List.filterMap_eq_nil_iff]
      intro y _
      rw [List.isEmpty_iff.mp h]
      rfl
    rw [h₁, h₂]
    exact ⟨List.nodup_nil, fun name c => ⟨fun h => (by cases h), fun h => absurd h (split_none _)⟩⟩
  · have h₁ : create ys rs = ys.foldl (createStep rs) [] := by rw [create, if_neg h]
    rw [h₁, create_eq]
    obtain ⟨h₂, h₃⟩ := Verif.C114.fold_spec (ys.filterMap (entry rs)) [] List.nodup_nil
    refine ⟨h₂, fun name c => ?_⟩
    rw [h₃]
    simp

/-- The collections in effect: each name once, the last collection with the name whose file exists, and its rule. -/
theorem C115_in_effect (ys : List Yaml) (rs : List (Text × File)) :
    ((create ys rs).map (·.1)).Nodup ∧ ∀ name c, (name, c) ∈ create ys rs ↔
      ∃ y f i e, InEffect ys rs name y f ∧ Rule y i e ∧ c = ⟨name, f, i, e, y.influence⟩ := by
  refine ⟨(create_spec ys rs).1, fun name c => ?_⟩
  rw [(create_spec ys rs).2, final_filterMap]
  constructor
  · rintro ⟨pre, y, post, h₁, h₂, h₃⟩
    rcases hy : rs.lookup y.file with _ | f
    · rw [entry, hy] at h₂
      cases h₂
    · rw [entry, hy] at h₂
      have h₂ := Option.some.inj h₂
      have hn : y.name = name := congrArg (·.1) h₂
      have hc : fromYaml f y = c := congrArg (·.2) h₂
      obtain ⟨i, e, hr, hc'⟩ := (rule_iff f y c).mp hc
      refine ⟨y, f, i, e, ⟨pre, post, h₁, hn, hy, fun y' hy' hn' => ?_⟩, hr, by rw [← hn]; exact hc'⟩
      rcases hl : rs.lookup y'.file with _ | f'
      · rfl
      · exact absurd hn' (h₃ y' hy' (y'.name, fromYaml f' y') (by rw [entry, hl]; rfl))
  · rintro ⟨y, f, i, e, ⟨pre, post, h₁, hn, hy, h₃⟩, hr, rfl⟩
    refine ⟨pre, y, post, h₁, ?_, fun y' hy' x hx => ?_⟩
    · rw [entry, hy]
      show some (y.name, fromYaml f y) = _
      rw [(rule_iff f y ⟨name, f, i, e, y.influence⟩).mpr ⟨i, e, hr, by rw [hn]⟩, hn]
    · intro hxn
      rcases hl : rs.lookup y'.file with _ | f'
      · rw [entry, hl] at hx
        cases hx
      · rw [entry, hl] at hx
        have hx := Option.some.inj hx
        have := h₃ y' hy' (by rw [← hxn, ← hx])
        rw [hl] at this
        cases this

/-! ## References -/

theorem ref_iff (ref name h : Text) : ref.splitOn ';' = [name, h] ↔ ref = name ++ ';' :: h ∧ ';' ∉ name ∧ ';' ∉ h := by
  constructor
  · intro hs
    obtain ⟨h₁, h₂⟩ := split_head ref name [h] hs
    rcases h₂ with ⟨h₂, -⟩ | ⟨s', rfl, h₃⟩
    · cases h₂
    · obtain ⟨h₄, h₅⟩ := split_head s' h [] h₃
      rcases h₅ with ⟨-, rfl⟩ | ⟨s'', -, h₆⟩
      · exact ⟨rfl, h₁, h₄⟩
      · exact absurd h₆ (split_ne s'')
  · rintro ⟨rfl, h₁, h₂⟩
    rw [split_at name h h₁, split_alone h h₂]

theorem first_iff (lower : Text → Text) (f : File) (h : Text) (col : List ℚ) :
    column lower f h = some col ↔ First lower f h col := by
  rw [column, First]
  generalize f.columns = l
  induction l with
  | nil =>
    simp
  | cons x l ih =>
    obtain ⟨k, v⟩ := x
    by_cases hk : lower k = lower h
    · rw [List.find?_cons_of_pos (by simpa using hk)]
      constructor
      · intro e
        cases e
        exact ⟨[], k, l, rfl, hk, by simp⟩
      · rintro ⟨pre, k', post, e, hk', hpre⟩
        rcases pre with _ | ⟨p, pre⟩
        · cases e
          rfl
        · cases e
          exact absurd hk (hpre _ List.mem_cons_self)
    · rw [List.find?_cons_of_neg (by simpa using hk), ih]
      constructor
      · rintro ⟨pre, k', post, rfl, hk', hpre⟩
        refine ⟨(k, v) :: pre, k', post, rfl, hk', fun e he => ?_⟩
        rcases List.mem_cons.mp he with rfl | he
        · exact hk
        · exact hpre e he
      · rintro ⟨pre, k', post, e, hk', hpre⟩
        rcases pre with _ | ⟨p, pre⟩
        · cases e
          exact absurd hk' hk
        · cases e
          exact ⟨pre, k', post, rfl, hk', fun e he => hpre e (List.mem_cons_of_mem _ he)⟩

/-- What `get` does, in the terms of the specification. -/
theorem get_cases (lower : Text → Text) (ys : List Yaml) (rs : List (Text × File)) (ref : Text) :
    (∃ name h y f i e col, ref = name ++ ';' :: h ∧ ';' ∉ name ∧ ';' ∉ h ∧ InEffect ys rs name y f ∧ Rule y i e ∧
      First lower f h col ∧ get lower (create ys rs) ref = (match Series.sort ⟨f.times, col, e, i⟩ with
        | .ok s => .ok (ref, s)
        | .error e => .error (.series e))) ∨
    ((¬ ∃ name h y f col, ref = name ++ ';' :: h ∧ ';' ∉ name ∧ ';' ∉ h ∧ InEffect ys rs name y f ∧
      First lower f h col) ∧ get lower (create ys rs) ref = .error .notFound) := by
  obtain ⟨hnd, hmem⟩ := C115_in_effect ys rs
  by_cases hs : ∃ name h, ref.splitOn ';' = [name, h]
  · obtain ⟨name, h, hs⟩ := hs
    have hu : ∀ name' h', ref = name' ++ ';' :: h' → ';' ∉ name' → ';' ∉ h' → name' = name ∧ h' = h := by
      intro name' h' e h₁ h₂
      have := (ref_iff ref name' h').mpr ⟨e, h₁, h₂⟩
      rw [hs] at this
      cases this
      exact ⟨rfl, rfl⟩
    obtain ⟨h₁, h₂, h₃⟩ := (ref_iff ref name h).mp hs
    have hget : get lower (create ys rs) ref = (match (create ys rs).lookup name with
        | none => .error .notFound
        | some c => c.get lower h) := by
      rw [Verif.Collections.get, hs]
      rfl
    rcases hl : (create ys rs).lookup name with _ | c
    · rw [hl] at hget
      refine Or.inr ⟨?_, hget⟩
      rintro ⟨name', h', y, f, col, e₁, e₂, e₃, hin, -⟩
      obtain ⟨rfl, rfl⟩ := hu name' h' e₁ e₂ e₃
      obtain ⟨i, e, hr, -⟩ := (rule_iff f y _).mp rfl
      have := (lookup_iff _ hnd _ _).mpr ((hmem _ _).mpr ⟨y, f, i, e, hin, hr, rfl⟩)
      rw [hl] at this
      cases this
    · rw [hl] at hget
      obtain ⟨y, f, i, e, hin, hr, rfl⟩ := (hmem name c).mp ((lookup_iff _ hnd _ _).mp hl)
      rcases hcol : column lower f h with _ | col
      · refine Or.inr ⟨?_, ?_⟩
        · rintro ⟨name', h', y', f', col', e₁, e₂, e₃, hin', hf'⟩
          obtain ⟨rfl, rfl⟩ := hu name' h' e₁ e₂ e₃
          obtain ⟨i', e', hr', -⟩ := (rule_iff f' y' _).mp rfl
          have := (lookup_iff _ hnd _ _).mpr ((hmem _ _).mpr ⟨y', f', i', e', hin', hr', rfl⟩)
          rw [hl] at this
          have hff : f = f' := congrArg Collection.file (Option.some.inj this)
          rw [hff, (first_iff lower f' _ col').mpr hf'] at hcol
          cases hcol
        · rw [hget]
          simp only [Collection.get, hcol]
      · refine Or.inl ⟨name, h, y, f, i, e, col, h₁, h₂, h₃, hin, hr, (first_iff lower f h col).mp hcol, ?_⟩
        rw [hget]
        simp only [Collection.get, hcol]
        rw [h₁]
        rfl
  · refine Or.inr ⟨?_, ?_⟩
    · rintro ⟨name, h, -, -, -, e₁, e₂, e₃, -⟩
      exact hs ⟨name, h, (ref_iff ref name h).mpr ⟨e₁, e₂, e₃⟩⟩
    · rw [Verif.Collections.get]
      split
      · next name h e => exact absurd ⟨name, h, e⟩ hs
      · rfl

/-- A series that is found: the reference names a collection in effect and a column of its file; the rows are those of the
file in the order of their dates; interpolation and extrapolation are those of the collection. -/
theorem C115_found (lower : Text → Text) (ys : List Yaml) (rs : List (Text × File)) (ref id : Text) (s : Series)
    (h : get lower (create ys rs) ref = .ok (id, s)) :
    ∃ name h y f i e col, ref = name ++ ';' :: h ∧ InEffect ys rs name y f ∧ Rule y i e ∧ First lower f h col ∧ id = ref ∧
      (s.times.zip s.series).Perm (f.times.zip col) ∧ s.times.Pairwise (· ≤ ·) ∧ s.times.length = s.series.length ∧
      s.interpolation = i ∧ s.extrapolate = e := by
  rcases get_cases lower ys rs ref with ⟨name, hd, y, f, i, e, col, h₁, -, -, h₂, h₃, h₄, h₅⟩ | ⟨-, h'⟩
  · rw [h] at h₅
    have hs : Series.sort ⟨f.times, col, e, i⟩ = .ok s ∧ id = ref := by
      rcases hq : Series.sort ⟨f.times, col, e, i⟩ with er | s'
      · rw [hq] at h₅
        cases h₅
      · rw [hq] at h₅
        have h₆ := Except.ok.inj h₅
        have h₇ : s = s' := congrArg (·.2) h₆
        exact ⟨by rw [h₇], congrArg (·.1) h₆⟩
    obtain ⟨hs, hid⟩ := hs
    refine ⟨name, hd, y, f, i, e, col, h₁, h₂, h₃, h₄, hid, ?_⟩
    rw [Series.sort] at hs
    dsimp only at hs
    split at hs
    · cases hs
    · have hs := (Except.ok.inj hs).symm
      subst hs
      dsimp only
      have hzip : ∀ l : List (DateTime × ℚ), (l.map (·.1)).zip (l.map (·.2)) = l := by
        intro l
        induction l with
        | nil => rfl
        | cons x l ih => simp [ih]
      refine ⟨?_, ?_, by simp, rfl, rfl⟩
      · rw [hzip]
        exact List.mergeSort_perm _ _
      · have := List.pairwise_mergeSort (le := fun (a b : Int × ℚ) => decide (a.1 ≤ b.1))
          (by intro a b c h1 h2; simp at h1 h2 ⊢; omega) (by intro a b; simp; omega) (f.times.zip col)
        exact List.pairwise_map.mpr (this.imp (by intro a b h; simpa using h))
  · rw [h] at h'
    cases h'

/-- A reference is not found exactly if it is not `NAME;COLUMN` for a collection in effect and a column of its file. -/
theorem C115_not_found (lower : Text → Text) (ys : List Yaml) (rs : List (Text × File)) (ref : Text) :
    get lower (create ys rs) ref = .error .notFound ↔
      ¬ ∃ name h y f col, ref = name ++ ';' :: h ∧ ';' ∉ name ∧ ';' ∉ h ∧ InEffect ys rs name y f ∧ First lower f h col := by
  rcases get_cases lower ys rs ref with ⟨name, hd, y, f, i, e, col, h₁, h₂, h₃, h₄, h₅, h₆, h₇⟩ | ⟨h, h'⟩
  · constructor
    · intro h
      rcases hq : Series.sort ⟨f.times, col, e, i⟩ with er | s
      · rw [h₇, hq] at h
        cases h
      · rw [h₇, hq] at h
        cases h
    · intro h
      exact absurd ⟨name, hd, y, f, col, h₁, h₂, h₃, h₄, h₆⟩ h
  · exact ⟨fun _ => h, fun _ => h'⟩

/-- The dates that the collections in effect contribute. -/
theorem C115_time_vector (ys : List Yaml) (rs : List (Text × File)) (d : DateTime) :
    d ∈ timeVector (create ys rs) ↔ ∃ name y f, InEffect ys rs name y f ∧ y.influence = true ∧ d ∈ f.times := by
  rw [timeVector, Verif.C15.C15_collections]
  constructor
  · rintro ⟨ds, h, hd⟩
    obtain ⟨⟨name, c⟩, hc, e⟩ := List.mem_map.mp h
    obtain ⟨y, f, i, ex, hin, -, rfl⟩ := ((C115_in_effect ys rs).2 name c).mp hc
    have e₁ : y.influence = true := congrArg (·.1) e
    have e₂ : f.times = ds := congrArg (·.2) e
    exact ⟨name, y, f, hin, e₁, by rw [e₂]; exact hd⟩
  · rintro ⟨name, y, f, hin, h₁, h₂⟩
    obtain ⟨i, e, hr, -⟩ := (rule_iff f y _).mp rfl
    refine ⟨f.times, List.mem_map.mpr ⟨(name, ⟨name, f, i, e, y.influence⟩),
      ((C115_in_effect ys rs).2 _ _).mpr ⟨y, f, i, e, hin, hr, rfl⟩, ?_⟩, h₂⟩
    dsimp only
    rw [h₁]

/-! ## Variables -/

theorem in_effect_unique (ys : List Yaml) (rs : List (Text × File)) (name : Text) (y y' : Yaml) (f f' : File)
    (i i' : Interpolation) (e e' : Bool) (h : InEffect ys rs name y f) (h' : InEffect ys rs name y' f')
    (hr : Rule y i e) (hr' : Rule y' i' e') : f = f' ∧ i = i' ∧ e = e' := by
  obtain ⟨hnd, hmem⟩ := C115_in_effect ys rs
  have h₁ := (lookup_iff _ hnd _ _).mpr ((hmem _ _).mpr ⟨y, f, i, e, h, hr, rfl⟩)
  have h₂ := (lookup_iff _ hnd _ _).mpr ((hmem _ _).mpr ⟨y', f', i', e', h', hr', rfl⟩)
  rw [h₁] at h₂
  have h₃ := Option.some.inj h₂
  exact ⟨congrArg Collection.file h₃, congrArg Collection.interpolation h₃, congrArg Collection.extrapolation h₃⟩

/-- The values of a variable are those of its rows. -/
def Values (lower : Text → Text) (ys : List Yaml) (rs : List (Text × File)) (starts : List DateTime) (id : Text)
    (vs : List ℚ) : Prop :=
  ∃ name h y f i e col, id = name ++ ';' :: h ∧ InEffect ys rs name y f ∧ Rule y i e ∧ First lower f h col ∧
    List.Forall₂ (Fitted (f.times.zip col) e i) starts vs

theorem mapM_both {α β γ : Type} (g : α → Except CErr β) (k : β → Except CErr γ) (P : α → γ → Prop) (l : List α)
    (h : ∀ a ∈ l, ∃ b c, g a = .ok b ∧ k b = .ok c ∧ P a c) :
    ∃ bs cs, l.mapM g = .ok bs ∧ bs.mapM k = .ok cs ∧ List.Forall₂ P l cs := by
  induction l with
  | nil => exact ⟨[], [], rfl, rfl, .nil⟩
  | cons a l ih =>
    obtain ⟨bs, cs, h₁, h₂, h₃⟩ := ih fun a ha => h a (List.mem_cons_of_mem _ ha)
    obtain ⟨b, c, h₄, h₅, h₆⟩ := h a List.mem_cons_self
    refine ⟨b :: bs, c :: cs, ?_, ?_, .cons h₆ h₃⟩
    · rw [List.mapM_cons, h₄, h₁]
      rfl
    · rw [List.mapM_cons, h₅, h₂]
      rfl

theorem both_keys {β γ : Type} (P : β → γ → Prop) (l : List β) (cs : List (β × γ))
    (h : List.Forall₂ (fun b c => c.1 = b ∧ P b c.2) l cs) : cs.map (·.1) = l := by
  induction h with
  | nil => rfl
  | cons h _ ih => rw [List.map_cons, ih, h.1]

theorem both_mem {β γ : Type} (P : β → γ → Prop) (l : List β) (cs : List (β × γ))
    (h : List.Forall₂ (fun b c => c.1 = b ∧ P b c.2) l cs) (b : β) (c : γ) (hm : (b, c) ∈ cs) : P b c := by
  induction h with
  | nil => cases hm
  | @cons b' x l cs h _ ih =>
    rcases List.mem_cons.mp hm with e | e
    · rw [← e] at h
      have hb : b = b' := h.1
      rw [hb]
      exact h.2
    · exact ih e

/-- With valid files the variables exist; they are the columns of the collections in effect, each once; and each has at the
start of every period the value that its rows and the rule of its collection give. -/
theorem C115_variables (lower : Text → Text) (ys : List Yaml) (rs : List (Text × File)) (starts : List DateTime)
    (hf : ∀ n f, rs.lookup n = some f → Valid f) (hn : ∀ y ∈ ys, ';' ∉ y.name) (hs : starts.Pairwise (· ≤ ·)) :
    ∃ env, variablesOf lower (create ys rs) starts = .ok env ∧ (env.map (·.1)).Nodup ∧
      (∀ id, id ∈ env.map (·.1) ↔ ∃ name h y f, InEffect ys rs name y f ∧ h ∈ f.headers ∧ id = name ++ ';' :: h) ∧
      ∀ id vs, (id, vs) ∈ env → Values lower ys rs starts id vs := by
  have hrefs : ∀ id, id ∈ references (create ys rs) ↔
      ∃ name h y f, InEffect ys rs name y f ∧ h ∈ f.headers ∧ id = name ++ ';' :: h := by
    intro id
    rw [references, List.mem_flatMap]
    constructor
    · rintro ⟨⟨name, c⟩, hc, hid⟩
      obtain ⟨y, f, i, e, hin, -, rfl⟩ := ((C115_in_effect ys rs).2 name c).mp hc
      obtain ⟨h, hh, rfl⟩ := List.mem_map.mp hid
      exact ⟨name, h, y, f, hin, hh, rfl⟩
    · rintro ⟨name, h, y, f, hin, hh, rfl⟩
      obtain ⟨i, e, hr, -⟩ := (rule_iff f y _).mp rfl
      exact ⟨(name, ⟨name, f, i, e, y.influence⟩), ((C115_in_effect ys rs).2 _ _).mpr ⟨y, f, i, e, hin, hr, rfl⟩,
        List.mem_map.mpr ⟨h, hh, rfl⟩⟩
  have hone : ∀ id ∈ references (create ys rs), ∃ b c, get lower (create ys rs) id = .ok b ∧ fitOne starts b = .ok c ∧
      (c.1 = id ∧ Values lower ys rs starts id c.2) := by
    intro id hid
    obtain ⟨name, h, y, f, hin, hh, rfl⟩ := (hrefs id).mp hid
    obtain ⟨pre, post, hys, hyn, hlk, -⟩ := id hin
    have hv := hf _ f hlk
    have hname : ';' ∉ name := by
      rw [← hyn]
      exact hn y (by rw [hys]; simp)
    have hh' := hv.clean h hh
    rcases get_cases lower ys rs (name ++ ';' :: h) with ⟨name', h', y', f', i, e, col, h₁, h₂, h₃, h₄, h₅, h₆, h₇⟩ |
      ⟨hno, -⟩
    · have hsp := (ref_iff _ _ _).mpr ⟨h₁, h₂, h₃⟩
      rw [(ref_iff _ name h).mpr ⟨rfl, hname, hh'⟩] at hsp
      cases hsp
      obtain ⟨i₀, e₀, hr₀, -⟩ := (rule_iff f y _).mp rfl
      obtain ⟨rfl, rfl, rfl⟩ := in_effect_unique ys rs name y y' f f' i₀ i e₀ e hin h₄ hr₀ h₅
      have hlen : f.times.length = col.length := by
        obtain ⟨pre, k, post, hc, -⟩ := h₆
        exact (hv.columns (k, col) (by rw [hc]; simp)).symm
      obtain ⟨s', r, hs₁, hs₂, -, hs₃⟩ := Verif.C16.C16_fit ⟨f.times, col, e₀, i₀⟩ hlen hv.dates hv.some starts hs
      refine ⟨(name ++ ';' :: h, s'), (name ++ ';' :: h, r.series), ?_, ?_, rfl,
        name, h, y', f, i₀, e₀, col, rfl, h₄, h₅, h₆, hs₃⟩
      · rw [h₇, hs₁]
      · simp only [fitOne, hs₂]
    · obtain ⟨col, hcol⟩ := hv.headers h hh
      rcases hc : column lower f h with _ | col'
      · rw [column, Option.map_eq_none_iff, List.find?_eq_none] at hc
        exact absurd (by simp) (hc (h, col) hcol)
      · exact absurd ⟨name, h, y, f, col', rfl, hname, hh', hin, (first_iff lower f h col').mp hc⟩ hno
  obtain ⟨bs, cs, h₁, h₂, h₃⟩ := mapM_both _ _ _ _ hone
  refine ⟨cs.foldl (fun acc e => dictSet e.1 e.2 acc) [], ?_, ?_, ?_, ?_⟩
  · rw [variablesOf, h₁]
    show (bs.mapM (fitOne starts) >>= _) = _
    rw [h₂]
    rfl
  · exact (Verif.C114.fold_spec cs [] List.nodup_nil).1
  · intro id
    rw [keys_fold, ← hrefs]
    rw [both_keys _ _ _ h₃]
    simp
  · intro id vs hm
    have hm' := ((Verif.C114.fold_spec cs [] List.nodup_nil).2 id vs).mp hm
    rcases hm' with hm' | ⟨hm', -⟩
    · exact both_mem _ _ _ h₃ id vs (final_mem _ _ _ hm')
    · cases hm'

/-- FINDING: of two columns whose headers differ in case only, both references give the values of the first. -/
theorem C115_case (lower : Text → Text) (c : Collection) (h h' : Text) (hl : lower h = lower h') :
    (c.get lower h).map (·.2) = (c.get lower h').map (·.2) := by
  have : column lower c.file h = column lower c.file h' := by simp only [column, hl]
  simp only [Collection.get, this]
  rcases column lower c.file h' with _ | col
  · rfl
  · dsimp only
    rcases Series.sort ⟨c.file.times, col, c.extrapolation, c.interpolation⟩ with e | s <;> rfl

/-! ## Example -/

/-- A file with two dates, out of order, and two columns. -/
def file : File := ⟨[20, 10], ["A".toList, "B".toList], [("DATE".toList, [0, 0]), ("A".toList, [2, 1]), ("B".toList, [4, 3])]⟩

/-- Collections: the second has a file that does not exist. -/
def collections : List Yaml := [⟨"S".toList, "f".toList, true, none⟩, ⟨"S".toList, "g".toList, true, none⟩,
  ⟨"T".toList, "f".toList, false, some (.linear, some true)⟩]

example : Valid file :=
  ⟨by decide, by decide, by decide, by
    intro h hh
    rcases List.mem_cons.mp hh with rfl | hh
    · exact ⟨[2, 1], by decide⟩
    · rw [List.mem_singleton.mp hh]
      exact ⟨[4, 3], by decide⟩, by decide +kernel⟩

example : create collections [("f".toList, file)] =
    [("S".toList, ⟨"S".toList, file, .right, false, true⟩), ("T".toList, ⟨"T".toList, file, .linear, true, false⟩)] := by
  decide +kernel

example : references (create collections [("f".toList, file)]) =
    ["S;A".toList, "S;B".toList, "T;A".toList, "T;B".toList] := by decide +kernel

/-- The dates of the file are 10 and 20: at 15 the column A of S still has the value of 10. -/
example : Fitted (file.times.zip [2, 1]) false .right 15 1 := by
  refine Or.inr (Or.inl ⟨⟨(10, 1), by decide, by decide⟩, ⟨(20, 2), by decide, by decide⟩, 10, by decide, by decide, ?_⟩)
  decide

example : get id (create collections [("f".toList, file)]) "S;C".toList = .error .notFound := by decide +kernel

example : get id (create collections [("f".toList, file)]) "S;A;B".toList = .error .notFound := by decide +kernel

example : timeVector (create collections [("f".toList, file)]) = [20, 10] := by decide +kernel

end Verif.C115
