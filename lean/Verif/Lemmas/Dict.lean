import Verif.Lemmas.Graph

/-! Insertion ordered dicts: keys and lookups of `dictSet` and of dict comprehensions. -/

namespace Verif.DictLemmas

open Verif.Time Verif.GraphLemmas

variable {κ ν : Type} [DecidableEq κ]

/-- Keys in order of first appearance, continuing a list of keys. -/
def addKeys (ks : List κ) (l : List κ) : List κ := l.foldl (fun ks k => if k ∈ ks then ks else ks ++ [k]) ks

/-- Specification: the value of the last pair with this key. -/
def lastOf (x : κ) : List (κ × ν) → Option ν
  | [] => none
  | p :: l => match lastOf x l with
    | some v => some v
    | none => if p.1 = x then some p.2 else none

/-- `dict.update` / a dict comprehension. -/
def setAll (d : List (κ × ν)) (l : List (κ × ν)) : List (κ × ν) := l.foldl (fun d p => dictSet p.1 p.2 d) d

theorem keys_dictSet (k : κ) (v : ν) (d : List (κ × ν)) :
    (dictSet k v d).map (·.1) = if k ∈ d.map (·.1) then d.map (·.1) else d.map (·.1) ++ [k] := by
  induction d with
  | nil => simp [dictSet]
  | cons p d ih =>
    obtain ⟨k', v'⟩ := p
    by_cases h : k' = k
    · subst h; simp [dictSet]
    · have h' : ¬ k = k' := fun e => h e.symm
      simp only [dictSet, h, if_false, List.map_cons, ih, List.mem_cons, h', false_or]
      split <;> simp

theorem keys_setAll (d l : List (κ × ν)) : (setAll d l).map (·.1) = addKeys (d.map (·.1)) (l.map (·.1)) := by
  induction l generalizing d with
  | nil => rfl
  | cons p l ih =>
    simp only [setAll, List.foldl_cons, addKeys, List.map_cons] at ih ⊢
    rw [ih, keys_dictSet]

theorem lookup_setAll (d l : List (κ × ν)) (x : κ) : (setAll d l).lookup x = (lastOf x l).or (d.lookup x) := by
  induction l generalizing d with
  | nil => simp [setAll, lastOf]
  | cons p l ih =>
    have : setAll d (p :: l) = setAll (dictSet p.1 p.2 d) l := rfl
    rw [this, ih, lookup_dictSet]
    simp only [lastOf]
    cases lastOf x l with
    | some v => simp
    | none =>
      by_cases h : x = p.1
      · simp [h]
      · have h' : ¬ p.1 = x := fun e => h e.symm
        simp [h, h']

theorem addKeys_nodup (ks l : List κ) (h : ks.Nodup) : (addKeys ks l).Nodup := by
  induction l generalizing ks with
  | nil => exact h
  | cons a l ih =>
    simp only [addKeys, List.foldl_cons] at ih ⊢
    apply ih
    split
    · exact h
    · rename_i ha
      rw [List.nodup_append]
      refine ⟨h, by simp, ?_⟩
      intro x hx y hy e
      simp only [List.mem_singleton] at hy
      exact ha (by rw [← hy, ← e]; exact hx)

theorem mem_addKeys (ks l : List κ) (x : κ) : x ∈ addKeys ks l ↔ x ∈ ks ∨ x ∈ l := by
  induction l generalizing ks with
  | nil => simp [addKeys]
  | cons a l ih =>
    simp only [addKeys, List.foldl_cons] at ih ⊢
    rw [ih]
    split
    · rename_i ha
      simp only [List.mem_cons]
      constructor
      · rintro (h | h)
        · exact .inl h
        · exact .inr (.inr h)
      · rintro (h | rfl | h)
        · exact .inl h
        · exact .inl ha
        · exact .inr h
    · simp only [List.mem_append, List.mem_cons, List.not_mem_nil, or_false, or_assoc]

theorem addKeys_append (ks l l' : List κ) : addKeys ks (l ++ l') = addKeys (addKeys ks l) l' := by
  simp [addKeys, List.foldl_append]

/-- Adding keys, some of them twice, is the same as adding each once. -/
theorem addKeys_dedup (ks l : List κ) : addKeys ks (addKeys [] l) = addKeys ks l := by
  have key : ∀ (l acc : List κ), addKeys ks (addKeys acc l) = addKeys (addKeys ks acc) l := by
    intro l
    induction l with
    | nil => intro acc; rfl
    | cons a l ih =>
      intro acc
      have e1 : addKeys acc (a :: l) = addKeys (if a ∈ acc then acc else acc ++ [a]) l := rfl
      have e2 : addKeys (addKeys ks acc) (a :: l) =
          addKeys (if a ∈ addKeys ks acc then addKeys ks acc else addKeys ks acc ++ [a]) l := rfl
      rw [e1, ih, e2]
      congr 1
      by_cases h : a ∈ acc
      · rw [if_pos h, if_pos ((mem_addKeys ks acc a).2 (.inr h))]
      · rw [if_neg h, addKeys_append]; rfl
  exact key l []

theorem lastOf_append (x : κ) (l l' : List (κ × ν)) : lastOf x (l ++ l') = (lastOf x l').or (lastOf x l) := by
  induction l with
  | nil => simp [lastOf]
  | cons p l ih =>
    simp only [List.cons_append, lastOf, ih]
    cases lastOf x l' <;> cases lastOf x l <;> simp

/-- In a dict the last value is the only one. -/
theorem lastOf_nodup (d : List (κ × ν)) (h : (d.map (·.1)).Nodup) (x : κ) : lastOf x d = d.lookup x := by
  induction d with
  | nil => rfl
  | cons p d ih =>
    obtain ⟨k, v⟩ := p
    simp only [List.map_cons, List.nodup_cons] at h
    simp only [lastOf, ih h.2]
    by_cases hx : x = k
    · subst hx
      have : d.lookup x = none := by
        cases hl : d.lookup x with
        | none => rfl
        | some w => exact absurd ((lookup_isSome d x).1 (by simp [hl])) h.1
      simp [this]
    · have h' : ¬ k = x := fun e => hx e.symm
      have hb : (x == k) = false := by simp [hx]
      simp only [List.lookup, hb, h', if_false]
      cases d.lookup x <;> rfl

/-- A dict is determined by its keys in order and its lookups. -/
theorem dict_ext (d d' : List (κ × ν)) (hn : (d.map (·.1)).Nodup) (hk : d.map (·.1) = d'.map (·.1))
    (hl : ∀ x, d.lookup x = d'.lookup x) : d = d' := by
  induction d generalizing d' with
  | nil => cases d' with
    | nil => rfl
    | cons p d' => simp at hk
  | cons p d ih =>
    obtain ⟨k, v⟩ := p
    cases d' with
    | nil => simp at hk
    | cons q d' =>
      obtain ⟨k', v'⟩ := q
      simp only [List.map_cons, List.cons.injEq] at hk
      obtain ⟨rfl, hk⟩ := hk
      simp only [List.map_cons, List.nodup_cons] at hn
      have h0 := hl k
      simp only [List.lookup, beq_self_eq_true, Option.some.injEq] at h0
      subst h0
      congr 1
      refine ih d' hn.2 hk ?_
      intro x
      by_cases hx : x = k
      · subst hx
        have h1 : d.lookup x = none := by
          cases hl : d.lookup x with
          | none => rfl
          | some w => exact absurd ((lookup_isSome d x).1 (by simp [hl])) hn.1
        have h2 : d'.lookup x = none := by
          cases hl : d'.lookup x with
          | none => rfl
          | some w => exact absurd ((lookup_isSome d' x).1 (by simp [hl])) (by rw [← hk]; exact hn.1)
        rw [h1, h2]
      · have hb : (x == k) = false := by simp [hx]
        have := hl x
        simpa only [List.lookup, hb] using this

theorem setAll_nodup (d l : List (κ × ν)) (h : (d.map (·.1)).Nodup) : ((setAll d l).map (·.1)).Nodup := by
  rw [keys_setAll]; exact addKeys_nodup _ _ h

/-- Updating with a dict built from a list is updating with the list. -/
theorem setAll_setAll (d l : List (κ × ν)) (h : (d.map (·.1)).Nodup) : setAll d (setAll [] l) = setAll d l := by
  refine dict_ext _ _ (setAll_nodup _ _ h) ?_ ?_
  · rw [keys_setAll, keys_setAll, keys_setAll]
    exact addKeys_dedup _ _
  · intro x
    rw [lookup_setAll, lookup_setAll, lastOf_nodup _ (setAll_nodup [] l (by simp)), lookup_setAll]
    simp

theorem setAll_append (d l l' : List (κ × ν)) : setAll d (l ++ l') = setAll (setAll d l) l' := by
  simp [setAll, List.foldl_append]

theorem addKeys_subset {ks l : List κ} (h : ∀ x ∈ l, x ∈ ks) : addKeys ks l = ks := by
  induction l with
  | nil => rfl
  | cons a t ih =>
    have : addKeys ks (a :: t) = addKeys (if a ∈ ks then ks else ks ++ [a]) t := rfl
    rw [this, if_pos (h a (by simp))]
    exact ih fun x hx => h x (by simp [hx])

theorem addKeys_fresh {l : List κ} (h : l.Nodup) (ks : List κ) (hd : ∀ x ∈ l, x ∉ ks) :
    addKeys ks l = ks ++ l := by
  induction l generalizing ks with
  | nil => simp [addKeys]
  | cons a t ih =>
    have : addKeys ks (a :: t) = addKeys (if a ∈ ks then ks else ks ++ [a]) t := rfl
    rw [List.nodup_cons] at h
    rw [this, if_neg (hd a (by simp)), ih h.2]
    · simp
    · intro x hx hm
      rcases List.mem_append.1 hm with hm | hm
      · exact hd x (by simp [hx]) hm
      · rw [List.mem_singleton] at hm
        exact h.1 (hm ▸ hx)

theorem lookup_map_key (g : κ → ν) (l : List κ) (x : κ) :
    (l.map fun k => (k, g k)).lookup x = if x ∈ l then some (g x) else none := by
  induction l with
  | nil => simp
  | cons a t ih =>
    by_cases ha : x = a
    · subst ha
      simp
    · rw [List.map_cons, List.lookup_cons, beq_eq_false_iff_ne.2 ha]
      simp [ih, ha]

/-- Overwriting some entries of a dict with one value for all keys. -/
theorem setAll_over {ks : List κ} (hks : ks.Nodup) (z : ν) {d : List (κ × ν)} (hn : (d.map (·.1)).Nodup)
    (hs : ∀ kv ∈ d, kv.1 ∈ ks) :
    setAll (setAll [] (ks.map fun k => (k, z))) d = ks.map fun k => (k, (d.lookup k).getD z) := by
  have hkz : (setAll ([] : List (κ × ν)) (ks.map fun k => (k, z))).map (·.1) = ks := by
    rw [keys_setAll]
    simp only [List.map_map, List.map_nil, Function.comp_def, List.map_id']
    exact addKeys_fresh hks [] (by simp)
  have hk : (setAll (setAll [] (ks.map fun k => (k, z))) d).map (·.1) = ks := by
    rw [keys_setAll, hkz]
    refine addKeys_subset fun x hx => ?_
    obtain ⟨kv, hkv, rfl⟩ := List.mem_map.1 hx
    exact hs kv hkv
  refine dict_ext _ _ (by rw [hk]; exact hks) (by simp [hk, Function.comp_def]) ?_
  intro x
  rw [lookup_setAll, lastOf_nodup d hn, lookup_setAll, lastOf_nodup _ (by simpa [Function.comp_def] using hks),
    lookup_map_key (fun _ => z), lookup_map_key (fun k => (d.lookup k).getD z)]
  by_cases hx : x ∈ ks
  · rcases hd : d.lookup x with _ | v <;> simp [hx]
  · have : d.lookup x = none := by
      rcases hd : d.lookup x with _ | v
      · rfl
      · exact absurd (hs _ (mem_of_lookup hd)) hx
    simp [hx, this]

end Verif.DictLemmas
