import Verif.Model.Lenient
import Mathlib.Data.List.Forall2
import Mathlib.Data.List.Nodup

/-!
# C119 Sections read without failing
-/

namespace Verif.C119
open Verif.YamlRead Verif.ModelFiles Verif.Lenient

variable {α β : Type}

/-! ## Specification -/

/-- The valid entries in order, each as what it becomes. -/
inductive Kept {ε γ : Type} (valid : ε → Option γ) : List ε → List γ → Prop
  | nil : Kept valid [] []
  | keep {e x es xs} : valid e = some x → Kept valid es xs → Kept valid (e :: es) (x :: xs)
  | skip {e es xs} : valid e = none → Kept valid es xs → Kept valid (e :: es) xs

/-- The entry of a document under a keyword. -/
def Entry (doc : Val) (keyword : String) (v : Val) : Prop :=
  ∃ before after, doc = .map (before ++ (.str keyword, v) :: after) ∧ ∀ e ∈ before, e.1 ≠ .str keyword

/-- A section of lists: the entries, none if there is no such list. -/
inductive Elements (doc : Val) (keyword : String) : List Val → Prop
  | list {l} : Entry doc keyword (.seq l) → Elements doc keyword l
  | none : (∀ l, ¬ Entry doc keyword (.seq l)) → Elements doc keyword []

/-- A section of names: the entries, none if there is no such dict. -/
inductive Named (doc : Val) (keyword : String) : List (Sc × Val) → Prop
  | dict {l} : Entry doc keyword (.map l) → Named doc keyword l
  | none : (∀ l, ¬ Entry doc keyword (.map l)) → Named doc keyword []

/-! ## Looking up -/

theorem find_iff (k : String) (v : Val) : ∀ l : List (Sc × Val),
    (l.find? fun e => e.1 = .str k).map (·.2) = some v ↔
      ∃ before after, l = before ++ (.str k, v) :: after ∧ ∀ e ∈ before, e.1 ≠ .str k := by
  intro l
  rw [Option.map_eq_some_iff]
  constructor
  · rintro ⟨⟨s, w⟩, h, rfl⟩
    obtain ⟨hs, before, after, e, hb⟩ := List.find?_eq_some_iff_append.mp h
    have hs : s = .str k := by simpa using hs
    subst hs
    exact ⟨before, after, e, fun x hx => by simpa using hb x hx⟩
  · rintro ⟨before, after, e, hb⟩
    refine ⟨(.str k, v), List.find?_eq_some_iff_append.mpr ⟨by simp, before, after, e, fun x hx => by simpa using hb x hx⟩, rfl⟩

theorem look_iff (k : String) (doc v : Val) : look k doc = some v ↔ Entry doc k v := by
  unfold Entry
  cases doc with
  | scalar s => exact ⟨(fun h => by cases h), fun ⟨_, _, h, _⟩ => by cases h⟩
  | seq l => exact ⟨(fun h => by cases h), fun ⟨_, _, h, _⟩ => by cases h⟩
  | map l =>
    rw [look, find_iff]
    constructor
    · rintro ⟨b, a, rfl, h⟩; exact ⟨b, a, rfl, h⟩
    · rintro ⟨b, a, e, h⟩; exact ⟨b, a, Val.map.inj e, h⟩

theorem elements_eq {doc : Val} {k : String} {l : List Val} (h : Elements doc k l) : listOrEmpty k doc = l := by
  unfold listOrEmpty
  cases h with
  | list h => rw [(look_iff ..).mpr h]
  | none h =>
    cases hl : look k doc with
    | none => rfl
    | some v =>
      cases v with
      | scalar s => rfl
      | map m => rfl
      | seq l => exact absurd ((look_iff ..).mp hl) (h l)

theorem named_eq {doc : Val} {k : String} {l : List (Sc × Val)} (h : Named doc k l) : dictOrEmpty k doc = l := by
  unfold dictOrEmpty
  cases h with
  | dict h => rw [(look_iff ..).mpr h]
  | none h =>
    cases hl : look k doc with
    | none => rfl
    | some v =>
      cases v with
      | scalar s => rfl
      | seq m => rfl
      | map l => exact absurd ((look_iff ..).mp hl) (h l)

/-! ## Lists -/

theorem append_spec (valid : Val → Option α) : ∀ (l : List Val) (acc : List α),
    ∃ xs, appendValid valid acc l = acc ++ xs ∧ Kept valid l xs
  | [], acc => ⟨[], by simp [appendValid], .nil⟩
  | v :: l, acc => by
    rw [appendValid]
    cases hv : valid v with
    | none =>
      obtain ⟨xs, h, hk⟩ := append_spec valid l acc
      exact ⟨xs, h, .skip hv hk⟩
    | some x =>
      obtain ⟨xs, h, hk⟩ := append_spec valid l (acc ++ [x])
      exact ⟨x :: xs, by dsimp only; rw [h]; simp, .keep hv hk⟩

theorem kept_unique {ε γ : Type} {valid : ε → Option γ} {l : List ε} {xs ys : List γ} (h : Kept valid l xs)
    (h' : Kept valid l ys) : xs = ys := by
  induction h generalizing ys with
  | nil => cases h'; rfl
  | keep hv _ ih =>
    cases h' with
    | keep hw hk =>
      rw [hv] at hw
      rw [Option.some.inj hw, ih hk]
    | skip hw _ => rw [hv] at hw; cases hw
  | skip hv _ ih =>
    cases h' with
    | keep hw _ => rw [hv] at hw; cases hw
    | skip _ hk => exact ih hk

theorem kept_insert {ε γ : Type} {valid : ε → Option γ} {bad : ε} (hb : valid bad = none) {after : List ε} :
    ∀ {before : List ε} {xs : List γ}, Kept valid (before ++ after) xs → Kept valid (before ++ bad :: after) xs
  | [], _, h => .skip hb h
  | _ :: _, _, h => by
    cases h with
    | keep hv hk => exact .keep hv (kept_insert hb hk)
    | skip hv hk => exact .skip hv (kept_insert hb hk)

theorem kept_all {ε γ : Type} {valid : ε → Option γ} {l : List ε} {xs : List γ} (h : Kept valid l xs)
    (hall : ∀ e ∈ l, valid e ≠ none) : List.Forall₂ (fun e x => valid e = some x) l xs := by
  induction h with
  | nil => exact .nil
  | keep hv _ ih => exact .cons hv (ih fun e he => hall e (List.mem_cons_of_mem _ he))
  | skip hv _ _ => exact absurd hv (hall _ List.mem_cons_self)

/-! ## Theorems -/

/-- **C119, lists.** A section that is a list gives its valid entries, in their order; anything else is as good as an empty
list. -/
theorem C119_list (valid : Val → Option α) (keyword : String) (doc : Val) (l : List Val) (hl : Elements doc keyword l)
    (xs : List α) : listSection valid keyword doc = xs ↔ Kept valid l xs := by
  unfold listSection
  rw [elements_eq hl]
  obtain ⟨ys, h, hk⟩ := append_spec valid l []
  rw [h, List.nil_append]
  exact ⟨fun e => e ▸ hk, fun k => kept_unique hk k⟩

/-- **C119, invalid entries.** An invalid entry, wherever it is in its list, changes nothing about the others. -/
theorem C119_invalid (valid : Val → Option α) (keyword : String) (doc doc' : Val) (before after : List Val) (bad : Val)
    (hb : valid bad = none) (h : Entry doc keyword (.seq (before ++ after)))
    (h' : Entry doc' keyword (.seq (before ++ bad :: after))) :
    listSection valid keyword doc' = listSection valid keyword doc :=
  (C119_list valid keyword doc' _ (.list h') _).mpr
    (kept_insert hb ((C119_list valid keyword doc _ (.list h) _).mp rfl))

/-- **C119, positions.** If all entries of a list are valid the position the reference service has for an entry is the one it
has in the document. -/
theorem C119_positions (valid : Val → Option α) (keyword : String) (doc : Val) (l : List Val) (hl : Elements doc keyword l)
    (hall : ∀ v ∈ l, valid v ≠ none) (x : α) (i : ℕ) :
    (x, i) ∈ positions valid keyword doc ↔ ∃ v, l[i]? = some v ∧ valid v = some x := by
  have F := kept_all ((C119_list valid keyword doc l hl _).mp rfl) hall
  unfold positions
  rw [List.mem_zipIdx_iff_getElem?]
  dsimp only
  generalize listSection valid keyword doc = xs at F ⊢
  clear hl hall
  induction F generalizing i with
  | nil => simp
  | cons hv _ ih =>
    cases i with
    | zero => simp [hv]
    | succ i => simpa using ih i

/-! ## Names -/

theorem assign_new (k : Sc) (x : α) : ∀ l : List (Sc × α), k ∉ l.map Prod.fst → assign k x l = l ++ [(k, x)]
  | [], _ => rfl
  | (s, y) :: rest, h => by
    have h1 : s ≠ k := fun e => h (by simp [e])
    rw [assign, if_neg h1, assign_new k x rest (fun e => h (by simp at e ⊢; exact .inr e))]
    rfl

/-- What a named entry becomes. -/
def entryOf (name : Sc → Bool) (valid : Val → Option α) (e : Sc × Val) : Option (Sc × α) :=
  if name e.1 then (valid e.2).map fun x => (e.1, x) else none

theorem enter_spec (name : Sc → Bool) (valid : Val → Option α) : ∀ (l : List (Sc × Val)) (acc : List (Sc × α)),
    (acc.map Prod.fst ++ l.map Prod.fst).Nodup →
    ∃ xs, enterValid name valid acc l = acc ++ xs ∧ Kept (entryOf name valid) l xs
  | [], acc, _ => ⟨[], by simp [enterValid], .nil⟩
  | (k, v) :: l, acc, hn => by
    have hsub : (acc.map Prod.fst ++ l.map Prod.fst).Nodup :=
      hn.sublist (List.Sublist.append_left (by simp) _)
    rw [enterValid]
    by_cases hk : name k = true
    · rw [if_pos hk]
      cases hv : valid v with
      | none =>
        obtain ⟨xs, h, hkept⟩ := enter_spec name valid l acc hsub
        exact ⟨xs, h, .skip (by simp [entryOf, hv]) hkept⟩
      | some x =>
        have hfresh : k ∉ acc.map Prod.fst := by
          intro hmem
          exact (List.nodup_append.mp hn).2.2 k hmem k (by simp) rfl
        obtain ⟨xs, h, hkept⟩ := enter_spec name valid l (acc ++ [(k, x)]) (by simpa using hn)
        refine ⟨(k, x) :: xs, ?_, .keep (by simp [entryOf, hv, hk]) hkept⟩
        dsimp only
        rw [assign_new k x acc hfresh, h]
        simp
    · rw [if_neg hk]
      obtain ⟨xs, h, hkept⟩ := enter_spec name valid l acc hsub
      exact ⟨xs, h, .skip (by simp [entryOf, hk]) hkept⟩

theorem kept_mem {ε γ : Type} {valid : ε → Option γ} {l : List ε} {xs : List γ} (h : Kept valid l xs) (x : γ) :
    x ∈ xs ↔ ∃ e ∈ l, valid e = some x := by
  induction h with
  | nil => simp
  | keep hv _ ih => simp [ih, hv, eq_comm]
  | skip hv _ ih => simp [ih, hv]

theorem kept_names {name : Sc → Bool} {valid : Val → Option α} {l : List (Sc × Val)} {xs : List (Sc × α)}
    (h : Kept (entryOf name valid) l xs) : (xs.map Prod.fst).Sublist (l.map Prod.fst) := by
  induction h with
  | nil => exact .slnil
  | @keep e x es xs hv _ ih =>
    have : x.1 = e.1 := by
      unfold entryOf at hv
      by_cases hk : name e.1 = true
      · rw [if_pos hk] at hv
        obtain ⟨y, -, rfl⟩ := Option.map_eq_some_iff.mp hv
        rfl
      · rw [if_neg hk] at hv; cases hv
    rw [List.map_cons, List.map_cons, this]
    exact ih.cons_cons _
  | skip _ _ ih => exact ih.cons _

theorem entryOf_iff (name : Sc → Bool) (valid : Val → Option α) (e : Sc × Val) (k : Sc) (x : α) :
    entryOf name valid e = some (k, x) ↔ e.1 = k ∧ name k = true ∧ valid e.2 = some x := by
  unfold entryOf
  by_cases hk : name e.1 = true
  · rw [if_pos hk, Option.map_eq_some_iff]
    constructor
    · rintro ⟨y, hy, e'⟩
      cases e'
      exact ⟨rfl, hk, hy⟩
    · rintro ⟨rfl, -, h⟩
      exact ⟨x, h, rfl⟩
  · rw [if_neg hk]
    exact ⟨(fun h => by cases h), fun ⟨h1, h2, _⟩ => absurd (h1 ▸ h2) hk⟩

/-- What is to be known of the entries read from a section of names. -/
structure ReadNames (name : Sc → Bool) (valid : Val → Option α) (l : List (Sc × Val)) (d : List (Sc × α)) : Prop where
  entries : ∀ k x, (k, x) ∈ d ↔ name k = true ∧ ∃ v, (k, v) ∈ l ∧ valid v = some x
  order : (d.map Prod.fst).Sublist (l.map Prod.fst)
  once : (d.map Prod.fst).Nodup

theorem enter_read (name : Sc → Bool) (valid : Val → Option α) (l : List (Sc × Val)) (hn : (l.map Prod.fst).Nodup) :
    ReadNames name valid l (enterValid name valid [] l) := by
  obtain ⟨xs, h, hk⟩ := enter_spec name valid l [] (by simpa using hn)
  rw [h, List.nil_append]
  refine ⟨?_, kept_names hk, hn.sublist (kept_names hk)⟩
  intro k x
  rw [kept_mem hk]
  constructor
  · rintro ⟨e, he, hx⟩
    obtain ⟨rfl, hk, hv⟩ := (entryOf_iff ..).mp hx
    exact ⟨hk, e.2, he, hv⟩
  · rintro ⟨hk, v, hv, hx⟩
    exact ⟨(k, v), hv, (entryOf_iff ..).mpr ⟨rfl, hk, hx⟩⟩

/-- **C119, names.** A section that is a dict gives, under each name, what the entry of the document under this name becomes,
if it is valid (and for variables, the name too); nothing else, in the order of the document, each name once. Anything that is
not a dict is as good as an empty one. -/
theorem C119_dict (name : Sc → Bool) (valid : Val → Option α) (keyword : String) (doc : Val) (l : List (Sc × Val))
    (hl : Named doc keyword l) (hn : (l.map Prod.fst).Nodup) :
    ReadNames name valid l (dictSection name valid keyword doc) := by
  unfold dictSection
  rw [named_eq hl]
  exact enter_read name valid l hn

/-- The dict of definitions, if there is one. -/
inductive Definitions (doc : Val) (key : String) : List (Sc × Val) → Prop
  | dict {m l} : Entry doc "DEFINITIONS" (.map m) → Entry (.map m) key (.map l) → Definitions doc key l
  | missing {m} : Entry doc "DEFINITIONS" (.map m) → (∀ v, ¬ Entry (.map m) key v) → Definitions doc key []
  | none : (∀ m, ¬ Entry doc "DEFINITIONS" (.map m)) → Definitions doc key []

/-- Under the definitions there is something else than a dict. -/
def Spoiled (doc : Val) (key : String) : Prop :=
  ∃ m v, Entry doc "DEFINITIONS" (.map m) ∧ Entry (.map m) key v ∧ ∀ l, v ≠ .map l

theorem items_cases (key : String) (doc : Val) :
    (∃ l, items key doc = .ok l ∧ Definitions doc key l ∧ ¬ Spoiled doc key) ∨
      (items key doc = .error .attributeError ∧ Spoiled doc key) := by
  unfold items
  have nodef : (∀ m, look "DEFINITIONS" doc ≠ some (.map m)) → Definitions doc key [] ∧ ¬ Spoiled doc key := by
    intro h
    refine ⟨.none fun m hm => h m ((look_iff ..).mpr hm), ?_⟩
    rintro ⟨m, v, hm, -⟩
    exact h m ((look_iff ..).mpr hm)
  cases hd : look "DEFINITIONS" doc with
  | none => exact .inl ⟨[], rfl, nodef fun m h => by rw [hd] at h; cases h⟩
  | some w =>
    cases w with
    | scalar s => exact .inl ⟨[], rfl, nodef fun m h => by rw [hd] at h; cases h⟩
    | seq s => exact .inl ⟨[], rfl, nodef fun m h => by rw [hd] at h; cases h⟩
    | map m =>
      have hm := (look_iff ..).mp hd
      have same : ∀ m', Entry doc "DEFINITIONS" (.map m') → m' = m := by
        intro m' h'
        have := (look_iff ..).mpr h'
        rw [hd] at this
        cases this
        rfl
      dsimp only
      cases hk : look key (.map m) with
      | none =>
        have none' : ∀ v, ¬ Entry (.map m) key v := by
          intro v hv
          rw [(look_iff ..).mpr hv] at hk
          cases hk
        refine .inl ⟨[], rfl, .missing hm none', ?_⟩
        rintro ⟨m', v, h', hv, -⟩
        rw [same m' h'] at hv
        exact none' v hv
      | some v =>
        have hv := (look_iff ..).mp hk
        cases v with
        | scalar s => exact .inr ⟨rfl, m, _, hm, hv, fun l h => by cases h⟩
        | seq s => exact .inr ⟨rfl, m, _, hm, hv, fun l h => by cases h⟩
        | map l =>
          refine .inl ⟨l, rfl, .dict hm hv, ?_⟩
          rintro ⟨m', v', h', hv', hne⟩
          rw [same m' h'] at hv'
          rw [(look_iff ..).mpr hv'] at hk
          exact hne l (Option.some.inj hk)

theorem definitions_unique {doc : Val} {key : String} {l l' : List (Sc × Val)} (h : Definitions doc key l)
    (h' : Definitions doc key l') : l = l' := by
  have val : ∀ {l}, Definitions doc key l → items key doc = .ok l := by
    intro l h
    unfold items
    cases h with
    | dict hm hl => rw [(look_iff ..).mpr hm]; dsimp only; rw [(look_iff ..).mpr hl]
    | @missing m hm hno =>
      rw [(look_iff ..).mpr hm]
      dsimp only
      cases hk : look key (.map m) with
      | none => rfl
      | some v => exact absurd ((look_iff ..).mp hk) (hno v)
    | none hno =>
      cases hd : look "DEFINITIONS" doc with
      | none => rfl
      | some w =>
        cases w with
        | scalar s => rfl
        | seq s => rfl
        | map m => exact absurd ((look_iff ..).mp hd) (hno m)
  exact Except.ok.inj ((val h).symm.trans (val h'))

/-- **C119, definitions.** The definitions give the valid process units and the valid fluids under their names. Reading them
fails, with an `AttributeError`, exactly if one of the two is there and is no dict. -/
theorem C119_definitions (unit : Val → Option α) (fluid : Val → Option β) (doc : Val) :
    ((∃ d, definitions unit fluid doc = .ok d) ↔ ¬ Spoiled doc "PROCESS_UNITS" ∧ ¬ Spoiled doc "FLUIDS") ∧
    (∀ e, definitions unit fluid doc = .error e → e = .attributeError) ∧
    ∀ us fs, Definitions doc "PROCESS_UNITS" us → Definitions doc "FLUIDS" fs → (us.map Prod.fst).Nodup →
      (fs.map Prod.fst).Nodup → ∀ d, definitions unit fluid doc = .ok d →
      ReadNames (fun _ => true) unit us d.1 ∧ ReadNames (fun _ => true) fluid fs d.2 := by
  unfold definitions
  rcases items_cases "PROCESS_UNITS" doc with ⟨us, hu, du, su⟩ | ⟨hu, su⟩
  · rw [hu]
    dsimp only
    rcases items_cases "FLUIDS" doc with ⟨fs, hf, df, sf⟩ | ⟨hf, sf⟩
    · rw [hf]
      refine ⟨⟨fun _ => ⟨su, sf⟩, fun _ => ⟨_, rfl⟩⟩, (fun e h => by cases h), ?_⟩
      intro us' fs' du' df' nu nf d hd
      have hd := Except.ok.inj hd
      subst hd
      rw [definitions_unique du' du] at nu ⊢
      rw [definitions_unique df' df] at nf ⊢
      exact ⟨enter_read _ unit us nu, enter_read _ fluid fs nf⟩
    · rw [hf]
      exact ⟨⟨(fun ⟨_, h⟩ => by cases h), fun h => absurd sf h.2⟩, (fun e h => by cases h; rfl),
        fun _ _ _ _ _ _ d h => by cases h⟩
  · rw [hu]
    exact ⟨⟨(fun ⟨_, h⟩ => by cases h), fun h => absurd su h.1⟩, (fun e h => by cases h; rfl),
      fun _ _ _ _ _ _ d h => by cases h⟩

/-! ## Findings -/

/-- Texts are valid. -/
def text : Val → Option String
  | .scalar (.str s) => some s
  | _ => none

/-- **C119, finding.** After an invalid entry the reference service counts the wrong positions. -/
theorem C119_shifted : positions text "MODELS" (.map [(.str "MODELS", .seq [.scalar .null, .scalar (.str "a")])]) =
    [("a", 0)] := by rfl

/-- **C119, finding.** Elsewhere an empty section is no error, but empty process units or fluids end with an
`AttributeError`, though all these properties are meant not to fail. -/
theorem C119_empty : definitions text text (.map [(.str "DEFINITIONS", .map [(.str "PROCESS_UNITS", .scalar .null)])]) =
      .error .attributeError ∧
    dictSection (fun _ => true) text "FLUID_MODELS" (.map [(.str "FLUID_MODELS", .scalar .null)]) = [] ∧
    definitions text text (.map [(.str "DEFINITIONS", .scalar .null)]) = .ok ([], []) := by
  exact ⟨rfl, rfl, rfl⟩

/-! ## Examples -/

/-- Valid entries of a list. -/
example : listSection text "MODELS" (.map [(.str "START", .scalar .null),
    (.str "MODELS", .seq [.scalar (.str "a"), .seq [], .scalar (.str "b")])]) = ["a", "b"] := by rfl

/-- Named entries, one of them invalid. -/
example : dictSection (fun k => decide (k ≠ .str "bad name")) text "VARIABLES" (.map [(.str "VARIABLES",
    .map [(.str "x", .scalar (.str "1")), (.str "bad name", .scalar (.str "2")), (.str "y", .seq []),
      (.str "z", .scalar (.str "3"))])]) = [(.str "x", "1"), (.str "z", "3")] := by rfl

/-- Definitions. -/
example : definitions text text (.map [(.str "DEFINITIONS", .map [(.str "FLUIDS", .map [(.str "f", .scalar (.str "1"))]),
    (.str "PROCESS_UNITS", .map [(.str "u", .scalar .null), (.str "v", .scalar (.str "2"))])])]) =
    .ok ([(.str "v", "2")], [(.str "f", "1")]) := by rfl

end Verif.C119
