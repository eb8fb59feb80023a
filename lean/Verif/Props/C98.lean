import Verif.Model.ModelFiles
import Mathlib.Data.List.Basic
import Mathlib.Tactic.Common

/-!
# C98 — The files a model needs are read and renamed as they are named in it
-/

namespace Verif.C98
open Verif.YamlRead Verif.ModelFiles

/-! ## Specification -/

/-- A text as a value. -/
abbrev text (s : String) : Val := .scalar (.str s)

/-- Somewhere in the value there is an entry `FILE: f`. -/
inductive Mentions : Val → String → Prop
  | here {l : List (Sc × Val)} {f : String} (h : (Sc.str "FILE", text f) ∈ l) : Mentions (.map l) f
  | entry {l : List (Sc × Val)} {k : Sc} {v : Val} {f : String} (h : (k, v) ∈ l) (m : Mentions v f) : Mentions (.map l) f
  | item {l : List Val} {v : Val} {f : String} (h : v ∈ l) (m : Mentions v f) : Mentions (.seq l) f

/-- A file of the time series: `FILE` of an item of TIME_SERIES. -/
def SeriesFile (v : Val) (f : String) : Prop :=
  ∃ l, look "TIME_SERIES" v = some (.seq l) ∧ ∃ e ∈ l, look "FILE" e = some (text f)

/-- A facility file: `FILE` of an item of FACILITY_INPUTS, of the curves of a model, or anywhere in the process units and
pipelines. -/
def FacilityFile (v : Val) (f : String) : Prop :=
  (∃ l, look "FACILITY_INPUTS" v = some (.seq l) ∧ ∃ e ∈ l, look "FILE" e = some (text f)) ∨
  (∃ l, look "MODELS" v = some (.seq l) ∧ ∃ e ∈ l, ∃ k, (k = "CURVES" ∨ k = "CURVE") ∧
    ∃ c, look k e = some c ∧ look "FILE" c = some (text f)) ∨
  (∃ d u, look "DEFINITIONS" v = some d ∧ look "PROCESS_UNITS" d = some u ∧ Mentions u f) ∨
  (∃ p, look "PROCESS_PIPELINES" v = some p ∧ Mentions p f)

/-- Changing the value of a key that is there. -/
def over (k : String) (f : Val → Val) (v : Val) : Val :=
  match look k v with
  | some x => put k (f x) v
  | none => v

/-- Changing a value that is a text. -/
def onText (g : String → String) : Val → Val
  | .scalar (.str s) => text (g s)
  | v => v

/-- The places of an item of a section where `update_resource_name` looks for files. -/
def entryAll (models : Bool) (g : String → String) (e : Val) : Val :=
  over "FILE" (onText g) (over "CURVE" (over "FILE" (onText g))
    (if models then over "CURVES" (over "FILE" (onText g)) e else e))

/-- All items of a section. -/
def sectionAll (sec : String) (g : String → String) (v : Val) : Val :=
  over sec (fun s => match s with
    | .seq l => .seq (l.map (entryAll (sec == "MODELS") g))
    | s => s) v

/-- All names at these places of a model changed. -/
def renameAll (g : String → String) (v : Val) : Val :=
  sectionAll "MODELS" g (sectionAll "FACILITY_INPUTS" g (sectionAll "TIME_SERIES" g v))

/-- The text of a value. -/
def textOf : Option Val → List String
  | some (.scalar (.str s)) => [s]
  | _ => []

/-- The names at the places of an item, in the order they are looked at. -/
def slots (models : Bool) (e : Val) : List String :=
  (if models then textOf ((look "CURVES" e).bind (look "FILE")) else []) ++
    textOf ((look "CURVE" e).bind (look "FILE")) ++ textOf (look "FILE" e)

/-- The names of a section. -/
def names (sec : String) (v : Val) : List String :=
  match look sec v with
  | some (.seq l) => l.flatMap (slots (sec == "MODELS"))
  | _ => []

/-- One name for another. -/
def swap1 (old new : String) (s : String) : String := if s = old then new else s

/-! ## Dicts -/

theorem get_putList (k : String) (y : Val) (l : List (Sc × Val)) (k' : String) :
    (List.find? (fun e => e.1 = .str k') (putList k y l)).map (·.2) =
      if k' = k then ((l.find? fun e => e.1 = .str k').map fun _ => y) else ((l.find? fun e => e.1 = .str k').map (·.2)) := by
  induction l with
  | nil => simp [putList]
  | cons e t ih =>
    obtain ⟨s, v⟩ := e
    rw [putList]
    by_cases hs : s = .str k
    · subst hs
      rw [if_pos rfl]
      by_cases hk : k' = k
      · subst hk
        simp
      · have : Sc.str k ≠ .str k' := fun h => hk (Sc.str.inj h).symm
        simp [hk, this]
    · rw [if_neg hs]
      by_cases hs' : s = .str k'
      · have hk : k' ≠ k := by rintro rfl; exact hs hs'
        simp [hs', hk]
      · simp only [List.find?_cons, hs', decide_false]
        exact ih

theorem get_put (k : String) (x y v : Val) (h : look k v = some x) : look k (put k y v) = some y := by
  rcases v with s | l | l
  · cases h
  · cases h
  · rw [put, look, get_putList, if_pos rfl]
    rw [look] at h
    rcases hf : l.find? (fun e => e.1 = .str k) with _ | e
    · rw [hf] at h; cases h
    · rw [hf]; rfl

theorem get_put_ne (k k' : String) (y v : Val) (h : k' ≠ k) : look k' (put k y v) = look k' v := by
  rcases v with s | l | l
  · rfl
  · rfl
  · rw [put, look, get_putList, if_neg h, look]

theorem putList_get (k : String) (x : Val) (l : List (Sc × Val))
    (h : (l.find? fun e => e.1 = .str k).map (·.2) = some x) : putList k x l = l := by
  induction l with
  | nil => rfl
  | cons e t ih =>
    obtain ⟨s, v⟩ := e
    rw [putList]
    by_cases hs : s = .str k
    · subst hs
      simp at h
      rw [if_pos rfl, h]
    · rw [if_neg hs, ih]
      simpa [List.find?_cons, hs] using h

theorem put_get (k : String) (x v : Val) (h : look k v = some x) : put k x v = v := by
  rcases v with s | l | l
  · rfl
  · rfl
  · rw [put, putList_get k x l h]

theorem putList_putList (k : String) (x y : Val) (l : List (Sc × Val)) : putList k x (putList k y l) = putList k x l := by
  induction l with
  | nil => rfl
  | cons e t ih =>
    obtain ⟨s, v⟩ := e
    rw [putList, putList]
    by_cases hs : s = .str k
    · rw [if_pos hs, if_pos hs, putList, if_pos hs]
    · rw [if_neg hs, if_neg hs, putList, if_neg hs, ih]

theorem put_put (k : String) (x y v : Val) : put k x (put k y v) = put k x v := by
  rcases v with s | l | l
  · rfl
  · rfl
  · rw [put, put, put, putList_putList]

theorem putList_comm (k k' : String) (x y : Val) (h : k ≠ k') (l : List (Sc × Val)) :
    putList k x (putList k' y l) = putList k' y (putList k x l) := by
  induction l with
  | nil => rfl
  | cons e t ih =>
    obtain ⟨s, v⟩ := e
    simp only [putList]
    by_cases hs : s = .str k
    · simp [hs, putList, h]
    · by_cases hs' : s = .str k'
      · simp [hs', putList, Ne.symm h]
      · simp [hs, hs', putList, ih]

theorem put_comm (k k' : String) (x y v : Val) (h : k ≠ k') : put k x (put k' y v) = put k' y (put k x v) := by
  rcases v with s | l | l
  · rfl
  · rfl
  · simp only [put, putList_comm k k' x y h]

theorem look_over (k : String) (f : Val → Val) (v : Val) : look k (over k f v) = (look k v).map f := by
  rw [over]
  rcases h : look k v with _ | x
  · rw [h]; rfl
  · exact get_put k x (f x) v h

theorem look_over_ne (k k' : String) (f : Val → Val) (v : Val) (h : k' ≠ k) : look k' (over k f v) = look k' v := by
  rw [over]
  rcases look k v with _ | x
  · rfl
  · exact get_put_ne k k' (f x) v h

theorem over_id (k : String) (f : Val → Val) (v : Val) (h : ∀ x, look k v = some x → f x = x) : over k f v = v := by
  rw [over]
  rcases hg : look k v with _ | x
  · rfl
  · dsimp only
    rw [h x hg]
    exact put_get k x v hg

theorem over_put (k : String) (f : Val → Val) (x y v : Val) (h : look k v = some x) :
    over k f (put k y v) = put k (f y) v := by
  rw [over, get_put k x y v h]
  exact put_put k _ _ v

theorem over_put_ne (k k' : String) (f : Val → Val) (y v : Val) (h : k ≠ k') :
    over k f (put k' y v) = put k' y (over k f v) := by
  rw [over, over, get_put_ne k' k y v h]
  rcases look k v with _ | x
  · rfl
  · exact put_comm k k' _ _ v h

/-! ## Entries -/

theorem isText_iff (old : String) (o : Option Val) : isText old o = true ↔ textOf o = [old] := by
  rcases o with _ | (s | l | l)
  · simp [isText, textOf]
  · cases s <;> simp [isText, textOf]
  · simp [isText, textOf]
  · simp [isText, textOf]

theorem isText_false (old : String) (o : Option Val) : isText old o = false ↔ old ∉ textOf o := by
  rcases o with _ | (s | l | l)
  · simp [isText, textOf]
  · cases s <;> simp [isText, textOf]
    exact ⟨fun h h' => h h'.symm, fun h h' => h h'.symm⟩
  · simp [isText, textOf]
  · simp [isText, textOf]

theorem textOf_map (g : String → String) (o : Option Val) : textOf (o.map (onText g)) = (textOf o).map g := by
  rcases o with _ | (s | l | l)
  · rfl
  · cases s <;> rfl
  · rfl
  · rfl

theorem updNested_eq (k old new : String) (e : Val) : updNested k old new e =
    if isText old ((look k e).bind (look "FILE")) then
      some (over k (over "FILE" (onText fun _ => new)) e) else none := by
  rw [updNested, over]
  rcases hk : look k e with _ | (s | l | l)
  · rfl
  · simp [look, isText]
  · simp [look, isText]
  · dsimp only [Option.bind]
    by_cases h : isText old (look "FILE" (.map l)) = true
    · rw [if_pos h, if_pos h, over]
      rcases hf : look "FILE" (.map l) with _ | x
      · rw [hf] at h; cases h
      · rw [hf] at h
        rcases x with s | l' | l'
        · cases s <;> first | rfl | cases h
        · cases h
        · cases h
    · rw [if_neg h, if_neg h]

theorem updFile_eq (old new : String) (e : Val) :
    (if isText old (look "FILE" e) then some (put "FILE" (.scalar (.str new)) e) else none) =
    if isText old (look "FILE" e) then some (over "FILE" (onText fun _ => new) e) else none := by
  by_cases h : isText old (look "FILE" e) = true
  · rw [if_pos h, if_pos h, over]
    rcases hf : look "FILE" e with _ | x
    · rw [hf] at h; cases h
    · rw [hf] at h
      rcases x with s | l' | l'
      · cases s <;> first | rfl | cases h
      · cases h
      · cases h
  · rw [if_neg h, if_neg h]

theorem not_dict (e : Val) (h : isDict e = false) (k : String) : look k e = none := by
  rcases e with s | l | l
  · rfl
  · rfl
  · cases h

theorem textOf_single (o : Option Val) (old : String) (h : old ∈ textOf o) : textOf o = [old] := by
  rcases o with _ | (s | l | l)
  · cases h
  · cases s <;> simp [textOf] at h ⊢
    exact h.symm
  · cases h
  · cases h

/-- The three attempts at an entry. -/
theorem updEntry_eq (models : Bool) (old new : String) (e : Val) : updEntry models old new e =
    if models = true ∧ old ∈ textOf ((look "CURVES" e).bind (look "FILE")) then
      some (over "CURVES" (over "FILE" (onText fun _ => new)) e)
    else if old ∈ textOf ((look "CURVE" e).bind (look "FILE")) then
      some (over "CURVE" (over "FILE" (onText fun _ => new)) e)
    else if old ∈ textOf (look "FILE" e) then some (over "FILE" (onText fun _ => new) e)
    else none := by
  have ht : ∀ o, (isText old o = true) = (old ∈ textOf o) := by
    intro o
    rw [isText_iff]
    exact propext ⟨fun h => by simp [h], fun h => textOf_single o old h⟩
  rw [updEntry, updFile_eq, updNested_eq, updNested_eq]
  simp only [ht]
  by_cases hd : isDict e = true
  · rw [if_pos hd]
    by_cases h1 : models = true ∧ old ∈ textOf ((look "CURVES" e).bind (look "FILE"))
    · rw [if_pos h1, if_pos h1.1, if_pos h1.2]
    · rw [if_neg h1]
      have : (if models = true then
          if old ∈ textOf ((look "CURVES" e).bind (look "FILE")) then
            some (over "CURVES" (over "FILE" (onText fun _ => new)) e) else none
          else none) = none := by
        by_cases hm : models = true
        · rw [if_pos hm, if_neg fun h => h1 ⟨hm, h⟩]
        · rw [if_neg hm]
      rw [this]
      dsimp only
      by_cases h2 : old ∈ textOf ((look "CURVE" e).bind (look "FILE"))
      · rw [if_pos h2, if_pos h2]
      · rw [if_neg h2, if_neg h2]
  · rw [if_neg hd]
    have hn := not_dict e (by simpa using hd)
    simp [hn, textOf]

theorem bind_over (k : String) (g : String → String) (e : Val) :
    (look k (over k (over "FILE" (onText g)) e)).bind (look "FILE") = ((look k e).bind (look "FILE")).map (onText g) := by
  rw [look_over]
  rcases look k e with _ | c
  · rfl
  · exact look_over "FILE" (onText g) c

theorem replace_single (old new : String) : ([old] : List String).replace old new = [new] := by
  simp

theorem over_over (k : String) (f g : Val → Val) (v : Val) : over k f (over k g v) = over k (fun x => f (g x)) v := by
  rcases h : look k v with _ | x
  · have : over k g v = v := over_id k g v (by rw [h]; simp)
    rw [this, over, over, h]
  · have : over k g v = put k (g x) v := by rw [over, h]
    rw [this, over_put k f x (g x) v h, over, h]

theorem over_congr (k : String) (f g : Val → Val) (v : Val) (h : ∀ x, look k v = some x → f x = g x) :
    over k f v = over k g v := by
  rw [over, over]
  rcases hx : look k v with _ | x
  · rfl
  · dsimp only
    rw [h x hx]

theorem over_comm (k k' : String) (f g : Val → Val) (v : Val) (h : k ≠ k') :
    over k f (over k' g v) = over k' g (over k f v) := by
  rcases hx : look k' v with _ | x
  · have h1 : over k' g v = v := over_id k' g v (by rw [hx]; simp)
    have h2 : over k' g (over k f v) = over k f v :=
      over_id k' g _ (by rw [look_over_ne k k' f v (Ne.symm h), hx]; simp)
    rw [h1, h2]
  · have h1 : over k' g v = put k' (g x) v := by rw [over, hx]
    have h2 : over k' g (over k f v) = put k' (g x) (over k f v) := by
      rw [over, look_over_ne k k' f v (Ne.symm h), hx]
    rw [h1, over_put_ne k k' f _ v h, h2]

theorem onText_absorb (g : String → String) (old new : String) (hg : g old = g new) (x : Val)
    (hx : x = text old) : onText g (onText (fun _ => new) x) = onText g x := by
  subst hx
  simp [onText, hg]

theorem file_absorb (g : String → String) (old new : String) (hg : g old = g new) (c : Val)
    (h : old ∈ textOf (look "FILE" c)) :
    over "FILE" (onText g) (over "FILE" (onText fun _ => new) c) = over "FILE" (onText g) c := by
  rw [over_over]
  refine over_congr _ _ _ _ fun x hx => ?_
  rw [hx] at h
  apply onText_absorb g old new hg
  rcases x with s | l | l
  · cases s <;> simp [textOf] at h
    rw [h]
  · cases h
  · cases h

theorem nested_absorb (k : String) (g : String → String) (old new : String) (hg : g old = g new) (e : Val)
    (h : old ∈ textOf ((look k e).bind (look "FILE"))) :
    over k (over "FILE" (onText g)) (over k (over "FILE" (onText fun _ => new)) e) = over k (over "FILE" (onText g)) e := by
  rw [over_over]
  refine over_congr _ _ _ _ fun c hc => ?_
  rw [hc] at h
  exact file_absorb g old new hg c h

theorem textOf_const (o : Option Val) (old new : String) (h : old ∈ textOf o) :
    textOf (o.map (onText fun _ => new)) = [new] := by
  rw [textOf_map, textOf_single o old h]
  rfl

/-- What an update does to an entry: the first of its names is replaced. -/
theorem updEntry_slots (models : Bool) (old new : String) (e : Val) :
    (updEntry models old new e = none ↔ old ∉ slots models e) ∧
    ∀ e', updEntry models old new e = some e' → slots models e' = (slots models e).replace old new ∧
      ∀ g, g old = g new → entryAll models g e' = entryAll models g e := by
  rw [updEntry_eq]
  by_cases h1 : models = true ∧ old ∈ textOf ((look "CURVES" e).bind (look "FILE"))
  · rw [if_pos h1]
    obtain ⟨rfl, h1⟩ := h1
    refine ⟨by simp [slots, h1], ?_⟩
    intro e' he'
    cases Option.some.inj he'
    constructor
    · simp only [slots, if_true, bind_over]
      rw [textOf_const _ old new h1, look_over_ne _ _ _ _ (by decide), look_over_ne _ _ _ _ (by decide),
        textOf_single _ old h1]
      simp
    · intro g hg
      simp only [entryAll, if_true]
      rw [nested_absorb "CURVES" g old new hg e h1]
  · rw [if_neg h1]
    have hA : old ∉ (if models then textOf ((look "CURVES" e).bind (look "FILE")) else []) := by
      by_cases hm : models = true
      · rw [if_pos hm]
        exact fun h => h1 ⟨hm, h⟩
      · rw [if_neg hm]
        simp
    by_cases h2 : old ∈ textOf ((look "CURVE" e).bind (look "FILE"))
    · rw [if_pos h2]
      refine ⟨by simp [slots, h2], ?_⟩
      intro e' he'
      cases Option.some.inj he'
      constructor
      · simp only [slots, bind_over]
        rw [textOf_const _ old new h2, look_over_ne _ _ _ _ (by decide), look_over_ne _ _ _ _ (by decide),
          textOf_single _ old h2, List.append_assoc, List.append_assoc, List.replace_append, if_neg hA]
        simp
      · intro g hg
        simp only [entryAll]
        congr 1
        by_cases hm : models = true
        · rw [if_pos hm, if_pos hm, over_comm "CURVES" "CURVE" _ _ _ (by decide),
            over_over, over_comm "CURVE" "CURVES" _ _ _ (by decide), over_comm "CURVE" "CURVES" _ _ _ (by decide)]
          congr 1
          rw [← over_over]
          exact nested_absorb "CURVE" g old new hg e h2
        · rw [if_neg hm, if_neg hm]
          exact nested_absorb "CURVE" g old new hg e h2
    · rw [if_neg h2]
      by_cases h3 : old ∈ textOf (look "FILE" e)
      · rw [if_pos h3]
        refine ⟨by simp [slots, h3], ?_⟩
        intro e' he'
        cases Option.some.inj he'
        constructor
        · simp only [slots]
          rw [look_over, textOf_const _ old new h3, look_over_ne _ _ _ _ (by decide), look_over_ne _ _ _ _ (by decide),
            textOf_single _ old h3]
          have hAB : old ∉ (if models = true then textOf ((look "CURVES" e).bind (look "FILE")) else []) ++
              textOf ((look "CURVE" e).bind (look "FILE")) := by
            rw [List.mem_append]
            rintro (h | h)
            · exact hA h
            · exact h2 h
          rw [List.replace_append, if_neg hAB, replace_single]
        · intro g hg
          simp only [entryAll]
          by_cases hm : models = true
          · rw [if_pos hm, if_pos hm, over_comm "CURVES" "FILE" _ _ _ (by decide),
              over_comm "CURVE" "FILE" _ _ _ (by decide), over_over]
            rw [over_comm "FILE" "CURVE" _ _ _ (by decide), over_comm "FILE" "CURVES" _ _ _ (by decide),
              over_comm "FILE" "CURVE" _ _ _ (by decide), over_comm "FILE" "CURVES" _ _ _ (by decide)]
            congr 2
            rw [← over_over]
            exact file_absorb g old new hg e h3
          · rw [if_neg hm, if_neg hm, over_comm "CURVE" "FILE" _ _ _ (by decide), over_over,
              over_comm "FILE" "CURVE" _ _ _ (by decide), over_comm "FILE" "CURVE" _ _ _ (by decide)]
            congr 1
            rw [← over_over]
            exact file_absorb g old new hg e h3
      · rw [if_neg h3]
        refine ⟨?_, by simp⟩
        simp only [slots, List.mem_append]
        tauto

theorem updEntries_spec (models : Bool) (old new : String) : ∀ l : List Val,
    (updEntries models old new l = none ↔ old ∉ l.flatMap (slots models)) ∧
    ∀ l', updEntries models old new l = some l' →
      l'.flatMap (slots models) = (l.flatMap (slots models)).replace old new ∧
      ∀ g, g old = g new → l'.map (entryAll models g) = l.map (entryAll models g) := by
  intro l
  induction l with
  | nil => simp [updEntries]
  | cons e es ih =>
    obtain ⟨hn, hs⟩ := updEntry_slots models old new e
    rw [updEntries, List.flatMap_cons, List.mem_append]
    rcases he : updEntry models old new e with _ | e1
    · have hne := hn.1 he
      dsimp only
      constructor
      · rw [Option.map_eq_none_iff, ih.1]
        tauto
      · intro l' hl'
        rcases hes : updEntries models old new es with _ | es1
        · rw [hes] at hl'; cases hl'
        · rw [hes] at hl'
          cases Option.some.inj hl'
          obtain ⟨h1, h2⟩ := ih.2 es1 hes
          constructor
          · rw [List.flatMap_cons, List.replace_append, if_neg hne, h1]
          · intro g hg
            rw [List.map_cons, List.map_cons, h2 g hg]
    · have hmem : old ∈ slots models e := by
        by_contra hc
        rw [hn.2 hc] at he
        cases he
      dsimp only
      refine ⟨by simp [hmem], ?_⟩
      intro l' hl'
      cases Option.some.inj hl'
      obtain ⟨h1, h2⟩ := hs e1 he
      constructor
      · rw [List.flatMap_cons, List.replace_append, if_pos hmem, h1]
      · intro g hg
        rw [List.map_cons, List.map_cons, h2 g hg]

/-! ## Renaming -/

/-- The sections in which names are changed. -/
def sections : List String := ["TIME_SERIES", "FACILITY_INPUTS", "MODELS"]

/-- The section can be gone through: it is not a number, `null` or a date. -/
def Iterable (sec : String) (v : Val) : Prop := ∀ s, look sec v = some (.scalar s) → ∃ t, s = .str t

theorem updSection_ok (sec old new : String) (v : Val) :
    (∃ r, updSection sec old new v = .ok r) ↔ Iterable sec v := by
  rw [updSection, Iterable]
  rcases hl : look sec v with _ | (s | l | l)
  · simp
  · cases s <;> simp
  · dsimp only
    rcases updEntries (sec == "MODELS") old new l with _ | l' <;> simp
  · simp

theorem updSection_spec (sec old new : String) (v : Val) (n : ℕ) (v' : Val)
    (h : updSection sec old new v = .ok (n, v')) :
    names sec v' = (names sec v).replace old new ∧
    n = (if old ∈ names sec v then 1 else 0) ∧
    (∀ k, k ≠ sec → look k v' = look k v) ∧
    (∀ g, g old = g new → sectionAll sec g v' = sectionAll sec g v) := by
  rw [updSection] at h
  have skip : names sec v = [] → (n, v') = (0, v) → names sec v' = (names sec v).replace old new ∧
      n = (if old ∈ names sec v then 1 else 0) ∧ (∀ k, k ≠ sec → look k v' = look k v) ∧
      (∀ g, g old = g new → sectionAll sec g v' = sectionAll sec g v) := by
    intro he hv
    cases hv
    simp [he]
  rcases hl : look sec v with _ | (s | l | l)
  · rw [hl] at h
    exact skip (by simp [names, hl]) (Except.ok.inj h).symm
  · rw [hl] at h
    cases s <;> first | exact skip (by simp [names, hl]) (Except.ok.inj h).symm | cases h
  · rw [hl] at h
    dsimp only at h
    obtain ⟨h1, h2⟩ := updEntries_spec (sec == "MODELS") old new l
    have hnames : names sec v = l.flatMap (slots (sec == "MODELS")) := by rw [names, hl]
    rcases hu : updEntries (sec == "MODELS") old new l with _ | l'
    · rw [hu] at h
      cases Except.ok.inj h
      have hnot := h1.1 hu
      rw [hnames, if_neg hnot, List.replace_of_not_mem hnot]
      exact ⟨rfl, rfl, fun _ _ => rfl, fun _ _ => rfl⟩
    · rw [hu] at h
      cases Except.ok.inj h
      obtain ⟨h3, h4⟩ := h2 l' hu
      have hmem : old ∈ l.flatMap (slots (sec == "MODELS")) := by
        by_contra hc
        rw [h1.2 hc] at hu
        cases hu
      refine ⟨?_, ?_, ?_, ?_⟩
      · rw [names, get_put sec _ _ v hl, hnames]
        exact h3
      · rw [hnames, if_pos hmem]
      · intro k hk
        exact get_put_ne sec k _ v hk
      · intro g hg
        rw [sectionAll, over_put sec _ _ _ v hl, sectionAll, over, hl]
        dsimp only
        rw [h4 g hg]
  · rw [hl] at h
    exact skip (by simp [names, hl]) (Except.ok.inj h).symm

theorem sectionAll_comm (sec sec' : String) (g : String → String) (v : Val) (h : sec ≠ sec') :
    sectionAll sec g (sectionAll sec' g v) = sectionAll sec' g (sectionAll sec g v) :=
  over_comm sec sec' _ _ v h

theorem names_congr (sec : String) (v v' : Val) (h : look sec v' = look sec v) : names sec v' = names sec v := by
  rw [names, names, h]

/-- **C98 (renaming).** Renaming a file succeeds when its three sections are lists (or texts, mappings or absent). In each of
them the first place that has the old name gets the new one; nothing else is changed; and the status says whether no, one
or more sections had the name. -/
theorem C98_rename (old new : String) (v : Val) :
    ((∃ r, updateName old new v = .ok r) ↔ ∀ sec ∈ sections, Iterable sec v) ∧
    ∀ st v', updateName old new v = .ok (st, v') →
      (∀ sec ∈ sections, names sec v' = (names sec v).replace old new) ∧
      (∀ k, k ∉ sections → look k v' = look k v) ∧
      (∀ g, g old = g new → renameAll g v' = renameAll g v) ∧
      (st = .zero ↔ ∀ sec ∈ sections, old ∉ names sec v) ∧
      (st = .many ↔ ∃ sec ∈ sections, ∃ sec' ∈ sections, sec ≠ sec' ∧ old ∈ names sec v ∧ old ∈ names sec' v) := by
  constructor
  · simp only [sections, List.mem_cons, List.not_mem_nil, or_false, forall_eq_or_imp, forall_eq]
    rw [updateName]
    rcases h1 : updSection "TIME_SERIES" old new v with e | ⟨a, v1⟩
    · have := (updSection_ok "TIME_SERIES" old new v).not.1 (by rw [h1]; simp)
      simp only [Bind.bind, Except.bind]
      constructor
      · rintro ⟨r, hr⟩; cases hr
      · rintro ⟨h, -⟩; exact absurd h this
    · have i1 := (updSection_ok "TIME_SERIES" old new v).1 ⟨_, h1⟩
      obtain ⟨-, -, k1, -⟩ := updSection_spec _ _ _ _ _ _ h1
      simp only [Bind.bind, Except.bind]
      have j2 : Iterable "FACILITY_INPUTS" v1 ↔ Iterable "FACILITY_INPUTS" v := by
        rw [Iterable, Iterable, k1 _ (by decide)]
      rcases h2 : updSection "FACILITY_INPUTS" old new v1 with e | ⟨b, v2⟩
      · have := (updSection_ok "FACILITY_INPUTS" old new v1).not.1 (by rw [h2]; simp)
        constructor
        · rintro ⟨r, hr⟩; cases hr
        · rintro ⟨-, h, -⟩; exact absurd (j2.2 h) this
      · have i2 := (updSection_ok "FACILITY_INPUTS" old new v1).1 ⟨_, h2⟩
        obtain ⟨-, -, k2, -⟩ := updSection_spec _ _ _ _ _ _ h2
        have j3 : Iterable "MODELS" v2 ↔ Iterable "MODELS" v := by
          rw [Iterable, Iterable, k2 _ (by decide), k1 _ (by decide)]
        dsimp only
        rcases h3 : updSection "MODELS" old new v2 with e | ⟨c, v3⟩
        · have := (updSection_ok "MODELS" old new v2).not.1 (by rw [h3]; simp)
          constructor
          · rintro ⟨r, hr⟩; cases hr
          · rintro ⟨-, -, h⟩; exact absurd (j3.2 h) this
        · have i3 := (updSection_ok "MODELS" old new v2).1 ⟨_, h3⟩
          exact ⟨fun _ => ⟨i1, j2.1 i2, j3.1 i3⟩, fun _ => ⟨_, rfl⟩⟩
  · intro st v' h
    rw [updateName] at h
    rcases h1 : updSection "TIME_SERIES" old new v with e | ⟨a, v1⟩
    · rw [h1] at h; cases h
    rw [h1] at h
    simp only [Bind.bind, Except.bind] at h
    rcases h2 : updSection "FACILITY_INPUTS" old new v1 with e | ⟨b, v2⟩
    · rw [h2] at h; cases h
    rw [h2] at h
    dsimp only at h
    rcases h3 : updSection "MODELS" old new v2 with e | ⟨c, v3⟩
    · rw [h3] at h; cases h
    rw [h3] at h
    dsimp only at h
    cases Except.ok.inj h
    obtain ⟨n1, c1, k1, g1⟩ := updSection_spec _ _ _ _ _ _ h1
    obtain ⟨n2, c2, k2, g2⟩ := updSection_spec _ _ _ _ _ _ h2
    obtain ⟨n3, c3, k3, g3⟩ := updSection_spec _ _ _ _ _ _ h3
    have e2 : names "FACILITY_INPUTS" v1 = names "FACILITY_INPUTS" v := names_congr _ _ _ (k1 _ (by decide))
    have e3 : names "MODELS" v2 = names "MODELS" v :=
      (names_congr _ _ _ (k2 _ (by decide))).trans (names_congr _ _ _ (k1 _ (by decide)))
    refine ⟨?_, ?_, ?_, ?_, ?_⟩
    · intro sec hsec
      simp only [sections, List.mem_cons, List.not_mem_nil, or_false] at hsec
      rcases hsec with rfl | rfl | rfl
      · rw [names_congr _ _ _ (k3 _ (by decide)), names_congr _ _ _ (k2 _ (by decide)), n1]
      · rw [names_congr _ _ _ (k3 _ (by decide)), n2, e2]
      · rw [n3, e3]
    · intro k hk
      simp only [sections, List.mem_cons, List.not_mem_nil, or_false, not_or] at hk
      rw [k3 k hk.2.2, k2 k hk.2.1, k1 k hk.1]
    · intro g hg
      simp only [renameAll]
      rw [sectionAll_comm "MODELS" "FACILITY_INPUTS" g _ (by decide), sectionAll_comm "MODELS" "TIME_SERIES" g _ (by decide),
        g3 g hg, ← sectionAll_comm "MODELS" "TIME_SERIES" g _ (by decide),
        ← sectionAll_comm "MODELS" "FACILITY_INPUTS" g _ (by decide),
        sectionAll_comm "FACILITY_INPUTS" "TIME_SERIES" g _ (by decide), g2 g hg,
        ← sectionAll_comm "FACILITY_INPUTS" "TIME_SERIES" g _ (by decide), g1 g hg]
    · rw [c1, c2, c3, e2, e3]
      simp only [sections, List.mem_cons, List.not_mem_nil, or_false, forall_eq_or_imp, forall_eq]
      by_cases p1 : old ∈ names "TIME_SERIES" v <;> by_cases p2 : old ∈ names "FACILITY_INPUTS" v <;>
        by_cases p3 : old ∈ names "MODELS" v <;> simp [p1, p2, p3, status]
    · rw [c1, c2, c3, e2, e3]
      simp only [sections, List.mem_cons, List.not_mem_nil, or_false, exists_eq_or_imp, exists_eq_left]
      by_cases p1 : old ∈ names "TIME_SERIES" v <;> by_cases p2 : old ∈ names "FACILITY_INPUTS" v <;>
        by_cases p3 : old ∈ names "MODELS" v <;> simp [p1, p2, p3, status]

theorem onText_fix (g : String → String) (x : Val) (h : ∀ s ∈ textOf (some x), g s = s) : onText g x = x := by
  rcases x with s | l | l
  · cases s <;> simp [onText, textOf] at h ⊢
    exact h
  · rfl
  · rfl

theorem entryAll_fix (models : Bool) (g : String → String) (e : Val) (h : ∀ s ∈ slots models e, g s = s) :
    entryAll models g e = e := by
  simp only [slots, List.mem_append] at h
  have h3 : ∀ c, (∀ s ∈ textOf (look "FILE" c), g s = s) → over "FILE" (onText g) c = c := by
    intro c hc
    refine over_id _ _ _ fun x hx => onText_fix g x fun s hs => hc s ?_
    rw [hx]
    exact hs
  have h2 : ∀ k, (∀ s ∈ textOf ((look k e).bind (look "FILE")), g s = s) →
      over k (over "FILE" (onText g)) e = e := by
    intro k hk
    refine over_id _ _ _ fun c hc => h3 c fun s hs => hk s ?_
    rw [hc]
    exact hs
  rw [entryAll]
  by_cases hm : models = true
  · rw [if_pos hm] at h ⊢
    rw [h2 "CURVES" fun s hs => h s (.inl (.inl hs)), h2 "CURVE" fun s hs => h s (.inl (.inr hs)),
      h3 e fun s hs => h s (.inr hs)]
  · rw [if_neg hm] at h ⊢
    rw [h2 "CURVE" fun s hs => h s (.inl (.inr hs)), h3 e fun s hs => h s (.inr hs)]

theorem sectionAll_fix (sec : String) (g : String → String) (v : Val) (h : ∀ s ∈ names sec v, g s = s) :
    sectionAll sec g v = v := by
  rw [sectionAll]
  refine over_id _ _ _ fun x hx => ?_
  rcases x with s | l | l
  · rfl
  · dsimp only
    congr 1
    rw [names, hx] at h
    conv_rhs => rw [← List.map_id l]
    refine List.map_congr_left fun e he => ?_
    exact entryAll_fix _ g e fun s hs => h s (List.mem_flatMap.2 ⟨e, he, hs⟩)
  · rfl

theorem renameAll_fix (g : String → String) (v : Val) (h : ∀ sec ∈ sections, ∀ s ∈ names sec v, g s = s) :
    renameAll g v = v := by
  rw [renameAll, sectionAll_fix "TIME_SERIES" g v (h _ (by decide)), sectionAll_fix "FACILITY_INPUTS" g v (h _ (by decide)),
    sectionAll_fix "MODELS" g v (h _ (by decide))]

theorem replace_once (old new : String) (l : List String) (h : l.count old ≤ 1) :
    l.replace old new = l.map (swap1 old new) := by
  induction l with
  | nil => rfl
  | cons a t ih =>
    by_cases ha : a = old
    · subst ha
      rw [List.count_cons_self] at h
      have h0 : a ∉ t := List.count_eq_zero.1 (by omega)
      rw [List.replace_cons_self, List.map_cons, swap1, if_pos rfl]
      congr 1
      conv_lhs => rw [← List.map_id t]
      refine List.map_congr_left fun s hs => ?_
      rw [swap1, if_neg (by rintro rfl; exact h0 hs)]
      rfl
    · rw [List.count_cons_of_ne ha] at h
      rw [List.map_cons, swap1, if_neg ha, ← ih h, List.replace_cons]
      have : (old == a) = false := by simpa using fun h : old = a => ha h.symm
      rw [this]

/-- **C98 (renaming, once).** When no section has the old name twice, every place that has it gets the new one and all else
stays: the model is the one in which the name was changed everywhere. -/
theorem C98_rename_once (old new : String) (v : Val) (st : Status) (v' : Val)
    (h : updateName old new v = .ok (st, v')) (h1 : ∀ sec ∈ sections, (names sec v).count old ≤ 1) :
    v' = renameAll (swap1 old new) v ∧ ∀ sec ∈ sections, names sec v' = (names sec v).map (swap1 old new) := by
  obtain ⟨hn, -, hg, -, -⟩ := (C98_rename old new v).2 st v' h
  have hmap : ∀ sec ∈ sections, names sec v' = (names sec v).map (swap1 old new) := fun sec hsec => by
    rw [hn sec hsec, replace_once old new _ (h1 sec hsec)]
  refine ⟨?_, hmap⟩
  have := hg (swap1 old new) (by simp [swap1])
  rw [← this, renameAll_fix]
  intro sec hsec s hs
  rw [hmap sec hsec] at hs
  obtain ⟨t, -, rfl⟩ := List.mem_map.1 hs
  by_cases ht : t = old
  · simp [swap1, ht]
  · simp [swap1, ht]

/-! ## Several names -/

/-- What the mappings make of a name when they are applied at once. -/
def substAll (ms : List (String × String)) (s : String) : String :=
  match ms.find? fun m => m.1 = s with
  | some m => m.2
  | none => s

/-- The status of a name: in how many sections it is. -/
def statusOf (v : Val) (old : String) : Status :=
  match (sections.filter fun sec => old ∈ names sec v).length with
  | 0 => .zero
  | 1 => .one
  | _ => .many

theorem status_eq (old new : String) (v : Val) (st : Status) (v' : Val) (h : updateName old new v = .ok (st, v')) :
    st = statusOf v old := by
  obtain ⟨-, -, -, h0, h2⟩ := (C98_rename old new v).2 st v' h
  simp only [sections, List.mem_cons, List.not_mem_nil, or_false, forall_eq_or_imp, forall_eq, exists_eq_or_imp,
    exists_eq_left] at h0 h2
  by_cases p1 : old ∈ names "TIME_SERIES" v <;> by_cases p2 : old ∈ names "FACILITY_INPUTS" v <;>
    by_cases p3 : old ∈ names "MODELS" v <;> simp [p1, p2, p3] at h0 h2 <;>
    simp [statusOf, sections, p1, p2, p3] <;> first | exact h2 | exact h0 | (rcases st with _ | _ | _ <;> simp_all)

theorem onText_onText (g g' : String → String) (x : Val) : onText g (onText g' x) = onText (fun s => g (g' s)) x := by
  rcases x with s | l | l
  · cases s <;> rfl
  · rfl
  · rfl

theorem file_file (g g' : String → String) (c : Val) :
    over "FILE" (onText g) (over "FILE" (onText g') c) = over "FILE" (onText fun s => g (g' s)) c := by
  rw [over_over]
  exact over_congr _ _ _ _ fun x _ => onText_onText g g' x

theorem nested_nested (k : String) (g g' : String → String) (c : Val) :
    over k (over "FILE" (onText g)) (over k (over "FILE" (onText g')) c) =
      over k (over "FILE" (onText fun s => g (g' s))) c := by
  rw [over_over]
  exact over_congr _ _ _ _ fun x _ => file_file g g' x

theorem entryAll_entryAll (models : Bool) (g g' : String → String) (e : Val) :
    entryAll models g (entryAll models g' e) = entryAll models (fun s => g (g' s)) e := by
  simp only [entryAll]
  by_cases hm : models = true
  · simp only [if_pos hm]
    rw [over_comm "CURVES" "FILE" _ _ _ (by decide), over_comm "CURVE" "FILE" _ _ _ (by decide), file_file,
      over_comm "CURVES" "CURVE" _ _ _ (by decide), nested_nested, nested_nested]
  · simp only [if_neg hm]
    rw [over_comm "CURVE" "FILE" _ _ _ (by decide), file_file, nested_nested]

theorem sectionAll_sectionAll (sec : String) (g g' : String → String) (v : Val) :
    sectionAll sec g (sectionAll sec g' v) = sectionAll sec (fun s => g (g' s)) v := by
  rw [sectionAll, sectionAll, over_over]
  refine over_congr _ _ _ _ fun x _ => ?_
  rcases x with s | l | l
  · rfl
  · dsimp only
    rw [List.map_map]
    congr 1
    exact List.map_congr_left fun e _ => entryAll_entryAll _ g g' e
  · rfl

theorem renameAll_renameAll (g g' : String → String) (v : Val) :
    renameAll g (renameAll g' v) = renameAll (fun s => g (g' s)) v := by
  have comm : ∀ (a b : String) (w : Val), a ≠ b → sectionAll a g (sectionAll b g' w) = sectionAll b g' (sectionAll a g w) :=
    fun a b w h => over_comm a b _ _ w h
  simp only [renameAll]
  rw [comm "TIME_SERIES" "MODELS" _ (by decide), comm "TIME_SERIES" "FACILITY_INPUTS" _ (by decide), sectionAll_sectionAll,
    comm "FACILITY_INPUTS" "MODELS" _ (by decide), sectionAll_sectionAll, sectionAll_sectionAll]

/-- **C98 (several names).** Renaming several files at once gives the model in which all names were changed simultaneously,
when no new name is an old one that comes later, and no section has an old name twice. The statuses are those of the
names in the model as it was. -/
theorem C98_renames (ms : List (String × String)) (v : Val) (ss : List (String × Status)) (v' : Val)
    (h : updateNames ms v = .ok (ss, v')) (hnd : (ms.map (·.1)).Nodup) (hnew : ms.Pairwise fun a b => a.2 ≠ b.1)
    (h1 : ∀ m ∈ ms, ∀ sec ∈ sections, (names sec v).count m.1 ≤ 1) :
    v' = renameAll (substAll ms) v ∧ ss = ms.map fun m => (m.1, statusOf v m.1) := by
  induction ms generalizing v ss v' with
  | nil =>
    rw [updateNames] at h
    cases Except.ok.inj h
    refine ⟨?_, rfl⟩
    rw [renameAll_fix]
    intro _ _ s _
    rfl
  | cons m rest ih =>
    obtain ⟨old, new⟩ := m
    rw [updateNames] at h
    rcases hu : updateName old new v with e | ⟨st, v1⟩
    · rw [hu] at h; cases h
    rw [hu] at h
    simp only [Bind.bind, Except.bind] at h
    rcases hr : updateNames rest v1 with e | ⟨ss1, v2⟩
    · rw [hr] at h; cases h
    rw [hr] at h
    cases Except.ok.inj h
    obtain ⟨hv1, hn1⟩ := C98_rename_once old new v st v1 hu (h1 (old, new) (by simp))
    rw [List.map_cons, List.nodup_cons] at hnd
    rw [List.pairwise_cons] at hnew
    have hne : ∀ m ∈ rest, m.1 ≠ old := fun m hm he => hnd.1 (List.mem_map.2 ⟨m, hm, he⟩)
    have hcount : ∀ m ∈ rest, ∀ l : List String, (l.map (swap1 old new)).count m.1 = l.count m.1 := by
      intro m hm l
      induction l with
      | nil => rfl
      | cons a t iht =>
        rw [List.map_cons, List.count_cons, List.count_cons, iht]
        congr 1
        by_cases ha : a = old
        · have e1 : new ≠ m.1 := hnew.1 m hm
          have e2 : old ≠ m.1 := (hne m hm).symm
          simp [swap1, ha, e1, e2]
        · simp [swap1, ha]
    have hmem : ∀ m ∈ rest, ∀ sec ∈ sections, (m.1 ∈ names sec v1 ↔ m.1 ∈ names sec v) := by
      intro m hm sec hsec
      rw [← List.count_pos_iff, ← List.count_pos_iff, hn1 sec hsec, hcount m hm]
    obtain ⟨hv2, hss⟩ := ih v1 ss1 v2 hr hnd.2 hnew.2 fun m hm sec hsec => by
      rw [hn1 sec hsec, hcount m hm]
      exact h1 m (by simp [hm]) sec hsec
    constructor
    · dsimp only
      rw [hv2, hv1, renameAll_renameAll]
      congr 1
      funext s
      by_cases hs : s = old
      · subst hs
        have : rest.find? (fun m => decide (m.1 = new)) = none := by
          rw [List.find?_eq_none]
          intro m hm
          simpa using fun he : m.1 = new => hnew.1 m hm he.symm
        simp [substAll, swap1, this]
      · have : old ≠ s := fun h => hs h.symm
        simp [substAll, swap1, hs, this]
    · rw [List.map_cons, hss, status_eq old new v st v1 hu]
      congr 1
      refine List.map_congr_left fun m hm => ?_
      simp only [statusOf]
      have : (sections.filter fun sec => decide (m.1 ∈ names sec v1)) =
          sections.filter fun sec => decide (m.1 ∈ names sec v) := by
        refine List.filter_congr fun sec hsec => ?_
        simp [hmem m hm sec hsec]
      rw [this]

/-- **C98, deviation (swapping).** Two names that are exchanged stay as they are. -/
theorem C98_swap (a b : String) (v : Val) (sec : String) (hsec : sec ∈ sections) (hn : names sec v = [a, b])
    (ss : List (String × Status)) (v' : Val) (h : updateNames [(a, b), (b, a)] v = .ok (ss, v')) :
    names sec v' = [a, b] := by
  simp only [updateNames, Bind.bind, Except.bind, pure, Except.pure] at h
  rcases h1 : updateName a b v with e | ⟨s1, v1⟩
  · rw [h1] at h; cases h
  rw [h1] at h
  dsimp only at h
  rcases h2 : updateName b a v1 with e | ⟨s2, v2⟩
  · rw [h2] at h; cases h
  rw [h2] at h
  cases Except.ok.inj h
  have e1 := ((C98_rename a b v).2 s1 v1 h1).1 sec hsec
  have e2 := ((C98_rename b a v1).2 s2 v2 h2).1 sec hsec
  rw [e2, e1, hn]
  simp

/-- **C98, deviation (twice).** Of two places in a section that have the name, one is renamed; the status is as for one. -/
theorem C98_twice (old new : String) (v : Val) (hn : names "FACILITY_INPUTS" v = [old, old])
    (hs : old ∉ names "TIME_SERIES" v) (hm : old ∉ names "MODELS" v) (st : Status) (v' : Val)
    (h : updateName old new v = .ok (st, v')) : names "FACILITY_INPUTS" v' = [new, old] ∧ st = .one := by
  constructor
  · rw [((C98_rename old new v).2 st v' h).1 _ (by decide), hn]
    simp
  · rw [status_eq old new v st v' h]
    simp [statusOf, sections, hn, hs, hm]

/-- **C98, deviation (null).** A section that is left empty is a TypeError. -/
theorem C98_null (old new : String) (v : Val) (sec : String) (hsec : sec ∈ sections)
    (h : look sec v = some (.scalar .null)) : ∀ r, updateName old new v ≠ .ok r := by
  intro r hr
  obtain ⟨t, ht⟩ := (C98_rename old new v).1.1 ⟨r, hr⟩ sec hsec .null h
  cases ht

/-! ## The files that are needed -/

theorem refsMap_mem (l : List (Sc × Val)) (f : String) :
    f ∈ refsMap l ↔ ∃ k v, (k, v) ∈ l ∧ ((k = .str "FILE" ∧ v = text f) ∨ f ∈ refs v) := by
  induction l with
  | nil => simp [refsMap]
  | cons e t ih =>
    obtain ⟨k, v⟩ := e
    have hstep : f ∈ refsMap ((k, v) :: t) ↔ ((k = .str "FILE" ∧ v = text f) ∨ f ∈ refs v) ∨ f ∈ refsMap t := by
      rw [refsMap.eq_def]
      dsimp only
      split
      · rename_i g
        simp only [List.mem_cons, refs, List.not_mem_nil, or_false, true_and]
        constructor
        · rintro (rfl | h)
          · exact .inl rfl
          · exact .inr h
        · rintro (h | h)
          · left
            injection h with h; injection h with h
            exact h.symm
          · exact .inr h
      · rename_i hno
        rw [List.mem_append]
        constructor
        · rintro (h | h)
          · exact .inl (.inr h)
          · exact .inr h
        · rintro ((⟨h1, h2⟩ | h) | h)
          · exact absurd h2 (by rintro rfl; exact hno f h1 rfl)
          · exact .inl h
          · exact .inr h
    rw [hstep, ih]
    constructor
    · rintro (h | ⟨k', v', hm, h⟩)
      · exact ⟨k, v, by simp, h⟩
      · exact ⟨k', v', by simp [hm], h⟩
    · rintro ⟨k', v', hm, h⟩
      rcases List.mem_cons.1 hm with he | hm
      · cases he
        exact .inl h
      · exact .inr ⟨k', v', hm, h⟩

mutual

theorem refs_mentions : ∀ (v : Val) (f : String), f ∈ refs v → Mentions v f
  | .scalar _, f, h => by simp [refs] at h
  | .seq l, f, h => by
    rw [refs] at h
    obtain ⟨v, hv, hm⟩ := refsSeq_mentions l f h
    exact .item hv hm
  | .map l, f, h => by
    rw [refs] at h
    rcases refsMap_mentions l f h with h | ⟨k, v, hm, h⟩
    · exact .here h
    · exact .entry hm h

theorem refsSeq_mentions : ∀ (l : List Val) (f : String), f ∈ refsSeq l → ∃ v ∈ l, Mentions v f
  | [], f, h => by simp [refsSeq] at h
  | v :: vs, f, h => by
    rw [refsSeq, List.mem_append] at h
    rcases h with h | h
    · exact ⟨v, by simp, refs_mentions v f h⟩
    · obtain ⟨w, hw, hm⟩ := refsSeq_mentions vs f h
      exact ⟨w, by simp [hw], hm⟩

theorem refsMap_mentions : ∀ (l : List (Sc × Val)) (f : String), f ∈ refsMap l →
    (Sc.str "FILE", text f) ∈ l ∨ ∃ k v, (k, v) ∈ l ∧ Mentions v f
  | [], f, h => by simp [refsMap] at h
  | (k, v) :: rest, f, h => by
    rw [refsMap.eq_def] at h
    dsimp only at h
    split at h
    · rcases List.mem_cons.1 h with rfl | h
      · exact .inl (by simp)
      · rcases refsMap_mentions rest f h with h | ⟨k', v', hm, h⟩
        · exact .inl (by simp [h])
        · exact .inr ⟨k', v', by simp [hm], h⟩
    · rw [List.mem_append] at h
      rcases h with h | h
      · exact .inr ⟨k, v, by simp, refs_mentions v f h⟩
      · rcases refsMap_mentions rest f h with h | ⟨k', v', hm, h⟩
        · exact .inl (by simp [h])
        · exact .inr ⟨k', v', by simp [hm], h⟩

end

theorem refsSeq_mem (l : List Val) (f : String) : f ∈ refsSeq l ↔ ∃ v ∈ l, f ∈ refs v := by
  induction l with
  | nil => simp [refsSeq]
  | cons v vs ih => simp [refsSeq, ih]

/-- **C98 (references).** The files that are found in a section are those under a `FILE` anywhere in it. -/
theorem C98_references (v : Val) (f : String) : f ∈ refs v ↔ Mentions v f := by
  refine ⟨refs_mentions v f, fun h => ?_⟩
  induction h with
  | here h =>
    rw [refs, refsMap_mem]
    exact ⟨_, _, h, .inl ⟨rfl, rfl⟩⟩
  | entry h _ ih =>
    rw [refs, refsMap_mem]
    exact ⟨_, _, h, .inr ih⟩
  | item h _ ih =>
    rw [refs, refsSeq_mem]
    exact ⟨_, h, ih⟩

theorem mapM_ok {α β : Type} (f : α → Except FErr β) : ∀ (l : List α) (r : List β), l.mapM f = .ok r →
    ∀ b, b ∈ r ↔ ∃ a ∈ l, f a = .ok b := by
  intro l
  induction l with
  | nil =>
    intro r h b
    cases Except.ok.inj h
    simp
  | cons a t ih =>
    intro r h b
    rw [List.mapM_cons] at h
    rcases ha : f a with e | x
    · rw [ha] at h; cases h
    rw [ha] at h
    rcases ht : t.mapM f with e | xs
    · rw [ht] at h; cases h
    rw [ht] at h
    cases Except.ok.inj h
    rw [List.mem_cons, ih xs ht b]
    simp only [List.mem_cons, exists_eq_or_imp, ha, Except.ok.injEq]
    constructor
    · rintro (rfl | h)
      · exact .inl rfl
      · exact .inr h
    · rintro (h | h)
      · exact .inl h.symm
      · exact .inr h

theorem mapM_total_iff {α β : Type} (f : α → Except FErr β) : ∀ l : List α,
    (∃ r, l.mapM f = .ok r) ↔ ∀ a ∈ l, ∃ b, f a = .ok b := by
  intro l
  induction l with
  | nil => simp [pure, Except.pure]
  | cons a t ih =>
    rw [List.mapM_cons]
    simp only [List.mem_cons, forall_eq_or_imp]
    rcases ha : f a with e | x
    · simp [Bind.bind, Except.bind]
    · rw [← ih]
      rcases ht : t.mapM f with e | xs <;> simp [Bind.bind, Except.bind, pure, Except.pure]

theorem fileOf_ok (e x : Val) : fileOf e = .ok (some x) ↔ look "FILE" e = some x ∧ x ≠ .scalar .null := by
  rw [fileOf]
  by_cases hd : isDict e = true
  · rw [if_pos hd]
    rcases look "FILE" e with _ | (s | l | l)
    · simp
    · cases s <;> simp <;> intro h <;> subst h <;> simp
    · simp only [Except.ok.injEq, Option.some.injEq]
      exact ⟨fun h => ⟨h, by rw [← h]; simp⟩, fun h => h.1⟩
    · simp only [Except.ok.injEq, Option.some.injEq]
      exact ⟨fun h => ⟨h, by rw [← h]; simp⟩, fun h => h.1⟩
  · rw [if_neg hd]
    have := not_dict e (by simpa using hd) "FILE"
    simp [this]

theorem listOrEmpty_mem (k : String) (v e : Val) : e ∈ listOrEmpty k v ↔ ∃ l, look k v = some (.seq l) ∧ e ∈ l := by
  rw [listOrEmpty]
  rcases look k v with _ | (s | l | l)
  · simp
  · simp
  · simp
  · simp

/-- **C98 (time series files).** The names of the time series files are those written under `FILE` in the items of
TIME_SERIES; there are none to be had only when an item is not a mapping. -/
theorem C98_series (v : Val) :
    ((∃ ns, seriesNames v = .ok ns) ↔ ∀ l, look "TIME_SERIES" v = some (.seq l) → ∀ e ∈ l, isDict e = true) ∧
    ∀ ns, seriesNames v = .ok ns → ∀ f, text f ∈ ns ↔ SeriesFile v f := by
  have hfile : ∀ e, (∃ b, fileOf e = .ok b) ↔ isDict e = true := by
    intro e
    rw [fileOf]
    by_cases hd : isDict e = true
    · rw [if_pos hd]
      simp only [hd, iff_true]
      split <;> exact ⟨_, rfl⟩
    · rw [if_neg hd]
      simp [hd]
  constructor
  · have := mapM_total_iff fileOf (listOrEmpty "TIME_SERIES" v)
    simp only [hfile, listOrEmpty_mem] at this
    rw [seriesNames]
    constructor
    · rintro ⟨ns, h⟩ l hl e he
      rcases hm : (listOrEmpty "TIME_SERIES" v).mapM fileOf with err | fs
      · rw [hm] at h; cases h
      · exact this.1 ⟨fs, hm⟩ e ⟨l, hl, he⟩
    · intro h
      obtain ⟨fs, hfs⟩ := this.2 fun e ⟨l, hl, he⟩ => h l hl e he
      exact ⟨_, by rw [hfs]; rfl⟩
  · intro ns h f
    rw [seriesNames] at h
    rcases hm : (listOrEmpty "TIME_SERIES" v).mapM fileOf with err | fs
    · rw [hm] at h; cases h
    rw [hm] at h
    cases Except.ok.inj h
    rw [List.mem_filterMap]
    constructor
    · rintro ⟨x, hx, rfl⟩
      obtain ⟨e, he, hf⟩ := (mapM_ok fileOf _ fs hm _).1 hx
      obtain ⟨l, hl, hel⟩ := (listOrEmpty_mem _ _ _).1 he
      exact ⟨l, hl, e, hel, ((fileOf_ok e _).1 hf).1⟩
    · rintro ⟨l, hl, e, he, hf⟩
      exact ⟨some (text f), (mapM_ok fileOf _ fs hm _).2 ⟨e, (listOrEmpty_mem _ _ _).2 ⟨l, hl, he⟩,
        (fileOf_ok e _).2 ⟨hf, by simp⟩⟩, rfl⟩

theorem dedup_mem (f : String) (l : List Sc) : ∀ seen : List Key,
    Sc.str f ∈ dedup seen l ↔ Sc.str f ∈ l ∧ Key.str f ∉ seen := by
  induction l with
  | nil => simp [dedup]
  | cons s t ih =>
    intro seen
    rw [dedup]
    by_cases hs : s = .str f
    · subst hs
      simp only [Sc.key]
      by_cases hk : Key.str f ∈ seen
      · rw [if_pos hk, ih]
        simp [hk]
      · rw [if_neg hk]
        simp [hk]
    · have hne : Sc.str f ≠ s := fun h => hs h.symm
      rcases hk : s.key with _ | k
      · dsimp only
        rw [ih]
        simp [hne]
      · dsimp only
        have hkf : k ≠ .str f := by
          rintro rfl
          cases s <;> simp [Sc.key] at hk
          exact hs (by rw [hk])
        by_cases hmem : k ∈ seen
        · rw [if_pos hmem, ih]
          simp [hne]
        · rw [if_neg hmem, List.mem_cons, ih]
          simp [hne, hkf.symm]

theorem dedup_nodup (l : List Sc) : ∀ seen : List Key,
    ((dedup seen l).map Sc.key).Nodup ∧ ∀ s ∈ dedup seen l, ∀ k ∈ seen, s.key ≠ some k := by
  induction l with
  | nil => simp [dedup]
  | cons s t ih =>
    intro seen
    rw [dedup]
    rcases hk : s.key with _ | k
    · exact ih seen
    · dsimp only
      by_cases hmem : k ∈ seen
      · rw [if_pos hmem]
        exact ih seen
      · rw [if_neg hmem]
        obtain ⟨h1, h2⟩ := ih (k :: seen)
        constructor
        · rw [List.map_cons, List.nodup_cons]
          refine ⟨?_, h1⟩
          rw [List.mem_map]
          rintro ⟨s', hs', he⟩
          exact h2 s' hs' k (by simp) (by rw [he, hk])
        · intro s' hs' k' hk'
          rcases List.mem_cons.1 hs' with rfl | hs'
          · rw [hk]
            rintro h
            cases Option.some.inj h
            exact hmem hk'
          · exact h2 s' hs' k' (by simp [hk'])

theorem hashable_ok (x : Val) (s : Sc) : hashable x = .ok s ↔ x = .scalar s := by
  rcases x with t | l | l
  · simp [hashable]
  · simp [hashable]
  · simp [hashable]

theorem curves_ok (m : Val) (cs : List Val) (h : curves m = .ok cs) (c : Val) :
    c ∈ cs ↔ ∃ k, (k = "CURVES" ∨ k = "CURVE") ∧ look k m = some c ∧ isDict c = true := by
  rw [curves] at h
  by_cases hd : isDict m = true
  · rw [if_pos hd] at h
    cases Except.ok.inj h
    rw [List.mem_filterMap]
    simp only [List.mem_cons, List.not_mem_nil, or_false, Option.filter_eq_some_iff]
  · rw [if_neg hd] at h
    cases h

theorem facilityVals_mem (v : Val) (vs : List Val) (h : facilityVals v = .ok vs) (f : String) :
    text f ∈ vs ↔ FacilityFile v f := by
  rw [facilityVals] at h
  rcases hc : (listOrEmpty "MODELS" v).mapM curves with e | cs
  · rw [hc] at h; cases h
  rw [hc] at h
  simp only [Bind.bind, Except.bind] at h
  rcases hf : (listOrEmpty "FACILITY_INPUTS" v ++ cs.flatten).mapM fileOf with e | fs
  · rw [hf] at h; cases h
  rw [hf] at h
  have h := Except.ok.inj h
  subst h
  rw [List.mem_append, List.mem_filterMap, List.mem_map, FacilityFile]
  have hfirst : (∃ a ∈ fs, id a = some (text f)) ↔
      (∃ l, look "FACILITY_INPUTS" v = some (.seq l) ∧ ∃ e ∈ l, look "FILE" e = some (text f)) ∨
      (∃ l, look "MODELS" v = some (.seq l) ∧ ∃ e ∈ l, ∃ k, (k = "CURVES" ∨ k = "CURVE") ∧
        ∃ c, look k e = some c ∧ look "FILE" c = some (text f)) := by
    constructor
    · rintro ⟨a, ha, rfl⟩
      obtain ⟨e, he, hfe⟩ := (mapM_ok fileOf _ fs hf _).1 ha
      have hlook := ((fileOf_ok e _).1 hfe).1
      rcases List.mem_append.1 he with he | he
      · obtain ⟨l, hl, hel⟩ := (listOrEmpty_mem _ _ _).1 he
        exact .inl ⟨l, hl, e, hel, hlook⟩
      · obtain ⟨c, hcs, hec⟩ := List.mem_flatten.1 he
        obtain ⟨m, hm, hcm⟩ := (mapM_ok curves _ cs hc _).1 hcs
        obtain ⟨k, hk, hkm, -⟩ := (curves_ok m c hcm e).1 hec
        obtain ⟨l, hl, hml⟩ := (listOrEmpty_mem _ _ _).1 hm
        exact .inr ⟨l, hl, m, hml, k, hk, e, hkm, hlook⟩
    · rintro (⟨l, hl, e, he, hfe⟩ | ⟨l, hl, m, hm, k, hk, c, hkc, hfc⟩)
      · exact ⟨some (text f), (mapM_ok fileOf _ fs hf _).2 ⟨e,
          List.mem_append.2 (.inl ((listOrEmpty_mem _ _ _).2 ⟨l, hl, he⟩)), (fileOf_ok e _).2 ⟨hfe, by simp⟩⟩, rfl⟩
      · have hmm : m ∈ listOrEmpty "MODELS" v := (listOrEmpty_mem _ _ _).2 ⟨l, hl, hm⟩
        obtain ⟨c', hc'⟩ := (mapM_total_iff curves _).1 ⟨cs, hc⟩ m hmm
        have hd : isDict c = true := by
          by_contra hd
          rw [not_dict c (by simpa using hd)] at hfc
          cases hfc
        have hcc : c ∈ c' := (curves_ok m c' hc' c).2 ⟨k, hk, hkc, hd⟩
        have hin : c' ∈ cs := (mapM_ok curves _ cs hc _).2 ⟨m, hmm, hc'⟩
        exact ⟨some (text f), (mapM_ok fileOf _ fs hf _).2 ⟨c,
          List.mem_append.2 (.inr (List.mem_flatten.2 ⟨c', hin, hcc⟩)), (fileOf_ok c _).2 ⟨hfc, by simp⟩⟩, rfl⟩
  have hsecond : (∃ a ∈ unitRefs v ++ refsOf (look "PROCESS_PIPELINES" v), Val.scalar (.str a) = text f) ↔
      (∃ d u, look "DEFINITIONS" v = some d ∧ look "PROCESS_UNITS" d = some u ∧ Mentions u f) ∨
      (∃ p, look "PROCESS_PIPELINES" v = some p ∧ Mentions p f) := by
    have hrefs : ∀ o : Option Val, f ∈ refsOf o ↔ ∃ u, o = some u ∧ Mentions u f := by
      intro o
      rcases o with _ | u
      · simp [refsOf]
      · simp [refsOf, C98_references]
    constructor
    · rintro ⟨a, ha, he⟩
      injection he with he; injection he with he; subst he
      rcases List.mem_append.1 ha with ha | ha
      · left
        rw [unitRefs] at ha
        rcases hd : look "DEFINITIONS" v with _ | (s | l | l)
        · rw [hd] at ha; cases ha
        · rw [hd] at ha; cases ha
        · rw [hd] at ha; cases ha
        · rw [hd] at ha
          obtain ⟨u, hu, hm⟩ := (hrefs _).1 ha
          exact ⟨_, u, rfl, hu, hm⟩
      · exact .inr ((hrefs _).1 ha)
    · rintro (⟨d, u, hd, hu, hm⟩ | h)
      · refine ⟨f, List.mem_append.2 (.inl ?_), rfl⟩
        rw [unitRefs, hd]
        rcases d with s | l | l
        · cases hu
        · cases hu
        · exact (hrefs _).2 ⟨u, hu, hm⟩
      · exact ⟨f, List.mem_append.2 (.inr ((hrefs _).2 h)), rfl⟩
  rw [hfirst]
  refine Iff.trans (or_congr Iff.rfl hsecond) ?_
  rw [or_assoc]

/-- **C98 (facility files).** The names of the facility files are those written under `FILE` in FACILITY_INPUTS, in the
curves of MODELS and anywhere in process units and pipelines, each once. -/
theorem C98_facility (v : Val) (ns : List Sc) (h : facilityNames v = .ok ns) :
    (∀ f, Sc.str f ∈ ns ↔ FacilityFile v f) ∧ (ns.map Sc.key).Nodup := by
  rw [facilityNames] at h
  rcases hv : facilityVals v with e | vs
  · rw [hv] at h; cases h
  rw [hv] at h
  simp only [Bind.bind, Except.bind] at h
  rcases hh : vs.mapM hashable with e | ss
  · rw [hh] at h; cases h
  rw [hh] at h
  cases Except.ok.inj h
  refine ⟨fun f => ?_, (dedup_nodup ss []).1⟩
  rw [dedup_mem, mapM_ok hashable vs ss hh, ← facilityVals_mem v vs hv]
  simp [hashable_ok]

/-! ## Reading them -/

theorem setItem_mem {α : Type} (n : String) (t : α) (l : List (String × α)) (hl : (l.map (·.1)).Nodup) :
    (∀ m u, (m, u) ∈ setItem n t l ↔ (m = n ∧ u = t) ∨ (m ≠ n ∧ (m, u) ∈ l)) ∧ ((setItem n t l).map (·.1)).Nodup ∧
    (∀ m, m ∈ (setItem n t l).map (·.1) ↔ m = n ∨ m ∈ l.map (·.1)) := by
  induction l with
  | nil => simp [setItem]
  | cons e rest ih =>
    obtain ⟨m0, u0⟩ := e
    rw [List.map_cons, List.nodup_cons] at hl
    obtain ⟨i1, i2, i3⟩ := ih hl.2
    rw [setItem]
    by_cases h : m0 = n
    · subst h
      rw [if_pos rfl]
      refine ⟨?_, ?_, ?_⟩
      · intro m u
        simp only [List.mem_cons, Prod.mk.injEq]
        constructor
        · rintro (h | h)
          · exact .inl h
          · refine .inr ⟨?_, .inr h⟩
            rintro rfl
            exact hl.1 (List.mem_map.2 ⟨_, h, rfl⟩)
        · rintro (h | ⟨h, ⟨h', -⟩ | h'⟩)
          · exact .inl h
          · exact absurd h' h
          · exact .inr h'
      · rw [List.map_cons, List.nodup_cons]
        exact hl
      · intro m
        simp
    · rw [if_neg h]
      refine ⟨?_, ?_, ?_⟩
      · intro m u
        simp only [List.mem_cons, Prod.mk.injEq, i1]
        constructor
        · rintro (⟨rfl, rfl⟩ | h' | ⟨h', h''⟩)
          · exact .inr ⟨h, .inl ⟨rfl, rfl⟩⟩
          · exact .inl h'
          · exact .inr ⟨h', .inr h''⟩
        · rintro (h' | ⟨h', h'' | h''⟩)
          · exact .inr (.inl h')
          · exact .inl h''
          · exact .inr (.inr ⟨h', h''⟩)
      · rw [List.map_cons, List.nodup_cons]
        refine ⟨?_, i2⟩
        rw [i3]
        rintro (h' | h')
        · exact h h'
        · exact hl.1 h'
      · intro m
        rw [List.map_cons, List.mem_cons, i3, List.map_cons, List.mem_cons]
        tauto

/-- The file under the name is invalid. -/
def isInvalid {α : Type} : File α → Bool
  | .invalid => true
  | _ => false

theorem readFiles_spec {α : Type} (fs : String → File α) : ∀ (ns : List Val) (res : List (String × α)) (errs : List String),
    (res.map (·.1)).Nodup → (∀ m u, (m, u) ∈ res → fs m = .table u) →
    ((∃ r, readFiles fs ns res errs = .ok r) ↔ ∀ x ∈ ns, ∃ f, x = text f) ∧
    ∀ res' errs', readFiles fs ns res errs = .ok (res', errs') →
      (res'.map (·.1)).Nodup ∧
      (∀ m u, (m, u) ∈ res' ↔ (m, u) ∈ res ∨ (text m ∈ ns ∧ fs m = .table u)) ∧
      errs' = errs ++ (ns.flatMap fun x => textOf (some x)).filter fun f => isInvalid (fs f) := by
  intro ns
  induction ns with
  | nil =>
    intro res errs hnd hres
    simp only [readFiles]
    refine ⟨by simp, ?_⟩
    intro res' errs' h
    cases Except.ok.inj h
    simp [hnd]
  | cons x rest ih =>
    intro res errs hnd hres
    by_cases hx : ∃ f, x = text f
    · obtain ⟨f, rfl⟩ := hx
      have hall : (∀ x ∈ text f :: rest, ∃ f, x = text f) ↔ ∀ x ∈ rest, ∃ f, x = text f := by
        simp [text]
      rw [hall]
      simp only [readFiles]
      rcases hf : fs f with _ | _ | t
      · obtain ⟨i1, i2⟩ := ih res errs hnd hres
        refine ⟨i1, fun res' errs' h => ?_⟩
        obtain ⟨a, b, c⟩ := i2 res' errs' h
        refine ⟨a, fun m u => ?_, ?_⟩
        · rw [b]
          constructor
          · rintro (h | ⟨h, h'⟩)
            · exact .inl h
            · exact .inr ⟨by simp [h], h'⟩
          · rintro (h | ⟨h, h'⟩)
            · exact .inl h
            · rcases List.mem_cons.1 h with he | h
              · injection he with he; injection he with he; subst he
                rw [hf] at h'; cases h'
              · exact .inr ⟨h, h'⟩
        · rw [c]
          simp [textOf, hf, isInvalid]
      · obtain ⟨i1, i2⟩ := ih res (errs ++ [f]) hnd hres
        refine ⟨i1, fun res' errs' h => ?_⟩
        obtain ⟨a, b, c⟩ := i2 res' errs' h
        refine ⟨a, fun m u => ?_, ?_⟩
        · rw [b]
          constructor
          · rintro (h | ⟨h, h'⟩)
            · exact .inl h
            · exact .inr ⟨by simp [h], h'⟩
          · rintro (h | ⟨h, h'⟩)
            · exact .inl h
            · rcases List.mem_cons.1 h with he | h
              · injection he with he; injection he with he; subst he
                rw [hf] at h'; cases h'
              · exact .inr ⟨h, h'⟩
        · rw [c]
          simp [textOf, hf, isInvalid]
      · obtain ⟨s1, s2, -⟩ := setItem_mem f t res hnd
        obtain ⟨i1, i2⟩ := ih (setItem f t res) errs s2 (by
          intro m u hm
          rcases (s1 m u).1 hm with ⟨rfl, rfl⟩ | ⟨-, h⟩
          · exact hf
          · exact hres m u h)
        refine ⟨i1, fun res' errs' h => ?_⟩
        obtain ⟨a, b, c⟩ := i2 res' errs' h
        refine ⟨a, fun m u => ?_, ?_⟩
        · rw [b, s1]
          constructor
          · rintro ((⟨rfl, rfl⟩ | ⟨-, h⟩) | ⟨h, h'⟩)
            · exact .inr ⟨by simp, hf⟩
            · exact .inl h
            · exact .inr ⟨by simp [h], h'⟩
          · rintro (hin | ⟨h, h'⟩)
            · by_cases hm : m = f
              · subst hm
                have := hres m u hin
                rw [hf] at this
                injection this with this
                exact .inl (.inl ⟨rfl, this.symm⟩)
              · exact .inl (.inr ⟨hm, hin⟩)
            · rcases List.mem_cons.1 h with he | h
              · injection he with he; injection he with he; subst he
                rw [hf] at h'
                injection h' with h'
                exact .inl (.inl ⟨rfl, h'.symm⟩)
              · exact .inr ⟨h, h'⟩
        · rw [c]
          simp [textOf, hf, isInvalid]
    · have herr : readFiles fs (x :: rest) res errs = .error .typeError := by
        rcases x with s | l | l
        · cases s
          · exact absurd ⟨_, rfl⟩ hx
          all_goals simp [readFiles]
        · simp [readFiles]
        · simp [readFiles]
      rw [herr]
      refine ⟨?_, by simp⟩
      simp only [reduceCtorEq, exists_false, List.mem_cons, forall_eq_or_imp, false_iff, not_and]
      exact fun h => absurd h hx

/-- **C98 (reading).** The resources that are read are the named files that hold a valid table, each with that table; the
errors are those of the named files that are invalid; files that do not exist are passed over. -/
theorem C98_read {α : Type} (fs : String → File α) (ns : List Val) :
    ((∃ r, readFiles fs ns [] [] = .ok r) ↔ ∀ x ∈ ns, ∃ f, x = text f) ∧
    ∀ res errs, readFiles fs ns [] [] = .ok (res, errs) →
      (res.map (·.1)).Nodup ∧ (∀ f t, (f, t) ∈ res ↔ text f ∈ ns ∧ fs f = .table t) ∧
      (∀ f, f ∈ errs ↔ text f ∈ ns ∧ fs f = .invalid) := by
  obtain ⟨h1, h2⟩ := readFiles_spec fs ns [] [] (by simp) (by simp)
  refine ⟨h1, fun res errs h => ?_⟩
  obtain ⟨a, b, c⟩ := h2 res errs h
  refine ⟨a, fun f t => by rw [b]; simp, fun f => ?_⟩
  rw [c, List.nil_append, List.mem_filter, List.mem_flatMap]
  constructor
  · rintro ⟨⟨x, hx, hf⟩, hi⟩
    constructor
    · have := textOf_single _ _ hf
      rcases x with s | l | l
      · cases s <;> simp [textOf] at hf
        rw [hf]
        exact hx
      · cases hf
      · cases hf
    · rcases hfs : fs f with _ | _ | t
      · rw [hfs] at hi; cases hi
      · rfl
      · rw [hfs] at hi; cases hi
  · rintro ⟨hx, hf⟩
    exact ⟨⟨_, hx, by simp [textOf]⟩, by rw [hf]; rfl⟩

/-- The file exists. -/
def exists? {α : Type} : File α → Prop
  | .missing => False
  | _ => True

/-- **C98 (found).** A name counts as found exactly when it is the name of a time series file or of a facility file and there
is such a file, be it valid or not; any other is reported as not found. -/
theorem C98_found {α β : Type} (ts : String → File α) (fac : String → File β) (v : Val)
    (r : (List (String × α) × List String) × (List (String × β) × List String)) (h : resources ts fac v = .ok r) (f : String) :
    f ∈ known r ↔ (SeriesFile v f ∧ exists? (ts f)) ∨ (FacilityFile v f ∧ exists? (fac f)) := by
  rw [resources] at h
  rcases hs : seriesNames v with e | sn
  · rw [hs] at h; cases h
  rw [hs] at h
  simp only [Bind.bind, Except.bind] at h
  rcases h1 : readFiles ts sn [] [] with e | ⟨r1, e1⟩
  · rw [h1] at h; cases h
  rw [h1] at h
  dsimp only at h
  rcases hn : facilityNames v with e | fn
  · rw [hn] at h; cases h
  rw [hn] at h
  dsimp only at h
  rcases h2 : readFiles fac (fn.map .scalar) [] [] with e | ⟨r2, e2⟩
  · rw [h2] at h; cases h
  rw [h2] at h
  cases Except.ok.inj h
  obtain ⟨-, a1, b1⟩ := (C98_read ts sn).2 r1 e1 h1
  obtain ⟨-, a2, b2⟩ := (C98_read fac (fn.map .scalar)).2 r2 e2 h2
  have hser := (C98_series v).2 sn hs f
  have hfac := (C98_facility v fn hn).1 f
  have hmem : text f ∈ fn.map Val.scalar ↔ Sc.str f ∈ fn := by simp [text]
  simp only [known, List.mem_append, List.mem_map, Prod.exists, exists_and_right, exists_eq_right, a1, b1, a2, b2, hmem, hser,
    hfac]
  rcases hts : ts f with _ | _ | t <;> rcases hfc : fac f with _ | _ | u <;> simp [exists?] <;> tauto

/-! ## The files needed after renaming -/

theorem mapM_map_map {α β γ : Type} (f : α → Except FErr β) (h : γ → α) (f' : γ → Except FErr β) (G : β → β)
    (hf : ∀ x, f (h x) = (f' x).map G) : ∀ l : List γ, (l.map h).mapM f = (l.mapM f').map (List.map G) := by
  intro l
  induction l with
  | nil => rfl
  | cons a t ih =>
    rw [List.map_cons, List.mapM_cons, List.mapM_cons, hf, ih]
    rcases f' a with e | x
    · rfl
    · rcases t.mapM f' with e | xs
      · rfl
      · rfl

theorem isDict_put (k : String) (x v : Val) : isDict (put k x v) = isDict v := by
  rcases v with s | l | l <;> rfl

theorem isDict_over (k : String) (f : Val → Val) (v : Val) : isDict (over k f v) = isDict v := by
  rw [over]
  rcases look k v with _ | x
  · rfl
  · exact isDict_put k _ v

theorem fileOf_congr (g : String → String) (e e' : Val) (hd : isDict e' = isDict e)
    (hl : look "FILE" e' = (look "FILE" e).map (onText g)) : fileOf e' = (fileOf e).map (Option.map (onText g)) := by
  rw [fileOf, fileOf, hd, hl]
  by_cases h : isDict e = true
  · rw [if_pos h, if_pos h]
    rcases look "FILE" e with _ | (s | l | l)
    · rfl
    · cases s <;> rfl
    · rfl
    · rfl
  · rw [if_neg h, if_neg h]
    rfl

theorem fileOf_over (g : String → String) (c : Val) :
    fileOf (over "FILE" (onText g) c) = (fileOf c).map (Option.map (onText g)) :=
  fileOf_congr g c _ (isDict_over _ _ _) (look_over _ _ _)

theorem isDict_entryAll (models : Bool) (g : String → String) (e : Val) : isDict (entryAll models g e) = isDict e := by
  rw [entryAll, isDict_over, isDict_over]
  by_cases hm : models = true
  · rw [if_pos hm, isDict_over]
  · rw [if_neg hm]

theorem look_entryAll (g : String → String) (e : Val) (k : String) (hk : k = "CURVES" ∨ k = "CURVE") :
    look k (entryAll true g e) = (look k e).map (over "FILE" (onText g)) := by
  rw [entryAll, if_pos rfl]
  rcases hk with rfl | rfl
  · rw [look_over_ne _ _ _ _ (by decide), look_over_ne _ _ _ _ (by decide), look_over]
  · rw [look_over_ne _ _ _ _ (by decide), look_over, look_over_ne _ _ _ _ (by decide)]

theorem fileOf_entryAll (models : Bool) (g : String → String) (e : Val) :
    fileOf (entryAll models g e) = (fileOf e).map (Option.map (onText g)) := by
  refine fileOf_congr g e _ (isDict_entryAll models g e) ?_
  rw [entryAll, look_over, look_over_ne _ _ _ _ (by decide)]
  by_cases hm : models = true
  · rw [if_pos hm, look_over_ne _ _ _ _ (by decide)]
  · rw [if_neg hm]

theorem curves_entryAll (g : String → String) (m : Val) :
    curves (entryAll true g m) = (curves m).map (List.map (over "FILE" (onText g))) := by
  rw [curves, curves, isDict_entryAll]
  by_cases h : isDict m = true
  · rw [if_pos h, if_pos h]
    have hfilter : ∀ o : Option Val, (o.map (over "FILE" (onText g))).filter isDict =
        (o.filter isDict).map (over "FILE" (onText g)) := by
      intro o
      rcases o with _ | c
      · rfl
      · by_cases hc : isDict c = true
        · simp [Option.filter, isDict_over, hc]
        · simp [Option.filter, isDict_over, hc]
    simp only [List.filterMap_cons, List.filterMap_nil, look_entryAll g m "CURVES" (.inl rfl),
      look_entryAll g m "CURVE" (.inr rfl), hfilter]
    rcases (look "CURVES" m).filter isDict with _ | a <;> rcases (look "CURVE" m).filter isDict with _ | b <;> rfl
  · rw [if_neg h, if_neg h]
    rfl

theorem look_renameAll (g : String → String) (v : Val) (sec : String) (hsec : sec ∈ sections) :
    listOrEmpty sec (renameAll g v) = (listOrEmpty sec v).map (entryAll (sec == "MODELS") g) := by
  have hl : look sec (renameAll g v) = (look sec v).map (fun s => match s with
      | .seq l => .seq (l.map (entryAll (sec == "MODELS") g))
      | s => s) := by
    simp only [sections, List.mem_cons, List.not_mem_nil, or_false] at hsec
    simp only [renameAll, sectionAll]
    rcases hsec with rfl | rfl | rfl
    · rw [look_over_ne _ _ _ _ (by decide), look_over_ne _ _ _ _ (by decide), look_over]
    · rw [look_over_ne _ _ _ _ (by decide), look_over, look_over_ne _ _ _ _ (by decide)]
    · rw [look_over, look_over_ne _ _ _ _ (by decide), look_over_ne _ _ _ _ (by decide)]
  rw [listOrEmpty, listOrEmpty, hl]
  rcases look sec v with _ | (s | l | l) <;> rfl

theorem look_renameAll_ne (g : String → String) (v : Val) (k : String) (hk : k ∉ sections) :
    look k (renameAll g v) = look k v := by
  simp only [sections, List.mem_cons, List.not_mem_nil, or_false, not_or] at hk
  simp only [renameAll, sectionAll]
  rw [look_over_ne _ _ _ _ hk.2.2, look_over_ne _ _ _ _ hk.2.1, look_over_ne _ _ _ _ hk.1]

theorem filterMap_map_some (g : Val → Val) (l : List (Option Val)) :
    (l.map (Option.map g)).filterMap id = (l.filterMap id).map g := by
  induction l with
  | nil => rfl
  | cons a t ih =>
    rcases a with _ | x
    · simpa using ih
    · simpa using ih

theorem mapM_append_except {α β : Type} (f : α → Except FErr β) (l l' : List α) :
    (l ++ l').mapM f = (do let a ← l.mapM f; let b ← l'.mapM f; pure (a ++ b)) := by
  induction l with
  | nil =>
    simp only [List.nil_append, List.mapM_nil]
    rcases l'.mapM f with e | b <;> rfl
  | cons a t ih =>
    rw [List.cons_append, List.mapM_cons, List.mapM_cons, ih]
    rcases f a with e | x
    · rfl
    · rcases t.mapM f with e | xs
      · rfl
      · rcases l'.mapM f with e | ys <;> rfl

/-- **C98 (files after renaming).** With a name changed everywhere, the time series files are the same as before with the
name changed, in the same order; and so are the facility files where there are no process units and pipelines. -/
theorem C98_files_renamed (g : String → String) (v : Val) :
    seriesNames (renameAll g v) = (seriesNames v).map (List.map (onText g)) ∧
    (look "DEFINITIONS" v = none → look "PROCESS_PIPELINES" v = none →
      facilityVals (renameAll g v) = (facilityVals v).map (List.map (onText g))) := by
  constructor
  · rw [seriesNames, seriesNames, look_renameAll g v _ (by decide),
      mapM_map_map fileOf (entryAll ("TIME_SERIES" == "MODELS") g) fileOf _ (fileOf_entryAll _ g)]
    rcases (listOrEmpty "TIME_SERIES" v).mapM fileOf with e | fs
    · rfl
    · simp only [Except.map, Bind.bind, Except.bind, pure, Except.pure, filterMap_map_some]
  · intro hd hp
    have hu : ∀ w, look "DEFINITIONS" w = none → unitRefs w = [] := by
      intro w hw
      rw [unitRefs, hw]
    have hd' := look_renameAll_ne g v "DEFINITIONS" (by decide)
    have hp' := look_renameAll_ne g v "PROCESS_PIPELINES" (by decide)
    have hm : ("MODELS" == "MODELS") = true := by decide
    rw [facilityVals, facilityVals, look_renameAll g v "MODELS" (by decide), look_renameAll g v "FACILITY_INPUTS" (by decide),
      hm, mapM_map_map curves (entryAll true g) curves _ (curves_entryAll g), hu v hd, hu _ (hd'.trans hd), hp', hp]
    rcases (listOrEmpty "MODELS" v).mapM curves with e | cs
    · rfl
    · simp only [Except.map, Bind.bind, Except.bind, pure, Except.pure]
      have hflat : (cs.map (List.map (over "FILE" (onText g)))).flatten = cs.flatten.map (over "FILE" (onText g)) := by
        rw [List.map_flatten]
      rw [hflat, mapM_append_except, mapM_append_except,
        mapM_map_map fileOf (entryAll ("FACILITY_INPUTS" == "MODELS") g) fileOf _ (fileOf_entryAll _ g),
        mapM_map_map fileOf (over "FILE" (onText g)) fileOf _ (fileOf_over g)]
      rcases (listOrEmpty "FACILITY_INPUTS" v).mapM fileOf with e | a
      · rfl
      · rcases cs.flatten.mapM fileOf with e | b
        · rfl
        · simp only [Except.map, Bind.bind, Except.bind, pure, Except.pure, refsOf, List.append_nil, List.map_nil,
            List.filterMap_append, List.map_append, filterMap_map_some]

/-- **C98, deviation (definitions).** Files of process units and pipelines are never renamed: they are needed under their old
names as before. -/
theorem C98_definitions (old new : String) (v : Val) (st : Status) (v' : Val) (h : updateName old new v = .ok (st, v'))
    (f : String) :
    (∃ d u, look "DEFINITIONS" v' = some d ∧ look "PROCESS_UNITS" d = some u ∧ Mentions u f) ↔
    (∃ d u, look "DEFINITIONS" v = some d ∧ look "PROCESS_UNITS" d = some u ∧ Mentions u f) := by
  rw [((C98_rename old new v).2 st v' h).2.1 "DEFINITIONS" (by decide)]

/-! ## Examples -/

/-- A model with four files. -/
def sample : Val := .map [
  (.str "TIME_SERIES", .seq [.map [(.str "NAME", text "SIM"), (.str "FILE", text "sim.csv")]]),
  (.str "FACILITY_INPUTS", .seq [.map [(.str "FILE", text "genset.csv")], .map [(.str "FILE", text "pump.csv")]]),
  (.str "MODELS", .seq [.map [(.str "NAME", text "chart"), (.str "CURVES", .map [(.str "FILE", text "chart.csv")])]]),
  (.str "DEFINITIONS", .map [(.str "PROCESS_UNITS", .map [(.str "comp", .map [(.str "CURVES", .map
    [(.str "FILE", text "pump.csv")])])])])]

example : facilityNames sample = .ok [.str "genset.csv", .str "pump.csv", .str "chart.csv"] := by rfl

example : seriesNames sample = .ok [text "sim.csv"] := by rfl

example : (updateName "chart.csv" "new.csv" sample).map (·.1) = .ok .one ∧
    ((updateName "chart.csv" "new.csv" sample).bind fun r => facilityNames r.2) =
      .ok [.str "genset.csv", .str "pump.csv", .str "new.csv"] := by
  constructor <;> rfl

example : ((updateName "pump.csv" "new.csv" sample).bind fun r => facilityNames r.2) =
    .ok [.str "genset.csv", .str "new.csv", .str "chart.csv", .str "pump.csv"] := by
  rfl

example : (updateNames [("sim.csv", "a.csv"), ("nothing.csv", "b.csv")] sample).map (·.1) =
    .ok [("sim.csv", .one), ("nothing.csv", .zero)] := by
  rfl

/-- A directory in which one file is missing and one invalid. -/
def sampleFiles : String → File ℕ
  | "genset.csv" => .table 1
  | "pump.csv" => .invalid
  | "sim.csv" => .table 3
  | _ => .missing

example : (resources sampleFiles sampleFiles sample).map known = .ok ["sim.csv", "genset.csv", "pump.csv"] := by
  rfl

end Verif.C98
