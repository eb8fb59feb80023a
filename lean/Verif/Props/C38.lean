import Verif.Model.Solver
import Verif.Lemmas.Dict

/-!
C38: solver configurations combine predictably: the later setting of a handler wins, every other setting is kept, no
handler is listed twice, and a combination stops at the first failure.
-/

namespace Verif.C38

open Verif.Time Verif.Solver Verif.DictLemmas

variable {κ υ φ : Type} [DecidableEq κ]

/-! ### Specification -/

/-- The last setting of a handler in a list. -/
def lastSetting (id : κ) : List (Configuration κ υ) → Option (Configuration κ υ)
  | [] => none
  | c :: l => match lastSetting id l with
    | some c' => some c'
    | none => if c.handler = id then some c else none

/-- The handlers of a list in the order of their first appearance. -/
def handlers : List κ → List κ
  | [] => []
  | k :: l => k :: (handlers l).filter fun x => decide (x ≠ k)

/-! ### Reduction to dicts -/

def pairs (l : List (Configuration κ υ)) : List (κ × Configuration κ υ) := l.map fun c => (c.handler, c)

theorem byHandler_eq (l : List (Configuration κ υ)) : byHandler l = setAll [] (pairs l) := by
  unfold byHandler setAll pairs
  rw [List.foldl_map]

theorem merge_eq (a b : List (Configuration κ υ)) :
    mergeConfigurations a b = (setAll [] (pairs a ++ pairs b)).map (·.2) := by
  unfold mergeConfigurations
  rw [byHandler_eq, byHandler_eq, setAll_append]
  congr 1
  exact setAll_setAll _ _ (setAll_nodup _ _ (by simp))

theorem lastOf_pairs (id : κ) (l : List (Configuration κ υ)) : lastOf id (pairs l) = lastSetting id l := by
  induction l with
  | nil => rfl
  | cons c l ih =>
    simp only [pairs, List.map_cons, lastOf, lastSetting] at ih ⊢
    rw [ih]
    cases lastSetting id l <;> rfl

/-- Every entry is filed under its own handler. -/
theorem self_keyed (l : List (Configuration κ υ)) : ∀ e ∈ setAll [] (pairs l), e.1 = e.2.handler := by
  have key : ∀ (l : List (Configuration κ υ)) (d : List (κ × Configuration κ υ)), (∀ e ∈ d, e.1 = e.2.handler) →
      ∀ e ∈ setAll d (pairs l), e.1 = e.2.handler := by
    intro l
    induction l with
    | nil => intro d h; exact h
    | cons c l ih =>
      intro d h
      refine ih (dictSet c.handler c d) ?_
      induction d with
      | nil => simp [dictSet]
      | cons p d ihd =>
        obtain ⟨k, v⟩ := p
        by_cases hk : k = c.handler
        · subst hk
          simp only [dictSet, if_true, List.mem_cons, forall_eq_or_imp, true_and]
          exact fun e he => h e (by simp [he])
        · simp only [dictSet, hk, if_false, List.mem_cons, forall_eq_or_imp]
          exact ⟨h (k, v) (by simp), ihd fun e he => h e (by simp [he])⟩
  exact key l [] (by simp)

omit [DecidableEq κ] in
theorem pairs_append (a b : List (Configuration κ υ)) : pairs a ++ pairs b = pairs (a ++ b) := by simp [pairs]

/-- A merged list seen as a dict is the dict it came from. -/
theorem pairs_merge (a b : List (Configuration κ υ)) : pairs (mergeConfigurations a b) = setAll [] (pairs (a ++ b)) := by
  rw [merge_eq, pairs_append]
  unfold pairs
  rw [List.map_map]
  conv_rhs => rw [← List.map_id (setAll [] _)]
  apply List.map_congr_left
  intro e he
  have := self_keyed (a ++ b) e he
  simp only [Function.comp, id]
  rw [← this]

theorem addKeys_eq (l : List κ) : ∀ ks : List κ, addKeys ks l = ks ++ (handlers l).filter fun x => decide (x ∉ ks) := by
  induction l with
  | nil => intro ks; simp [addKeys, handlers]
  | cons a l ih =>
    intro ks
    have e : addKeys ks (a :: l) = addKeys (if a ∈ ks then ks else ks ++ [a]) l := rfl
    rw [e, ih]
    simp only [handlers]
    by_cases h : a ∈ ks
    · rw [if_pos h, List.filter_cons_of_neg (by simpa using h), List.filter_filter]
      congr 1
      apply List.filter_congr
      intro x _
      by_cases hx : x = a
      · subst hx; simp [h]
      · simp [hx]
    · rw [if_neg h, List.filter_cons_of_pos (by simpa using h), List.filter_filter, List.append_assoc]
      congr 1
      simp only [List.singleton_append, List.cons.injEq, true_and]
      apply List.filter_congr
      intro x _
      by_cases hx : x = a
      · subst hx; simp
      · simp [hx]

/-- **C38.** The handlers of a merged list are those of both lists in the order of first appearance, each once. -/
theorem C38_handlers (a b : List (Configuration κ υ)) :
    (mergeConfigurations a b).map (·.handler) = handlers ((a ++ b).map (·.handler)) ∧
    ((mergeConfigurations a b).map (·.handler)).Nodup := by
  have h : (mergeConfigurations a b).map (·.handler) = (setAll [] (pairs (a ++ b))).map (·.1) := by
    rw [← pairs_merge]; simp [pairs, Function.comp_def]
  refine ⟨?_, ?_⟩
  · rw [h, keys_setAll, addKeys_eq]
    simp [pairs, Function.comp_def]
  · rw [h]; exact setAll_nodup _ _ (by simp)

theorem find_lookup (d : List (κ × Configuration κ υ)) (h : ∀ e ∈ d, e.1 = e.2.handler) (id : κ) :
    (d.map (·.2)).find? (fun c => decide (c.handler = id)) = d.lookup id := by
  induction d with
  | nil => rfl
  | cons p d ih =>
    obtain ⟨k, c⟩ := p
    have hk : k = c.handler := h (k, c) (by simp)
    simp only [List.map_cons, List.find?_cons, List.lookup]
    by_cases hi : c.handler = id
    · simp [hi, hk]
    · have hb : (id == k) = false := by simpa [hk] using fun e => hi e.symm
      simp only [hi, decide_false, hb]
      exact ih fun e he => h e (by simp [he])

/-- **C38.** Asking a merged configuration for a handler gives the last setting in the second list, or, if there is none,
the last setting in the first list; a handler in neither list is an error. -/
theorem C38_value (a b : List (Configuration κ υ)) (f : Option φ) (id : κ) :
    (Solution.mk (mergeConfigurations a b) f).getConfiguration id =
      match (lastSetting id b).or (lastSetting id a) with
      | some c => .ok c.value
      | none => .error .valueError := by
  unfold Solution.getConfiguration
  simp only
  rw [merge_eq, find_lookup _ (by rw [pairs_append]; exact self_keyed _), lookup_setAll, lastOf_append, lastOf_pairs,
    lastOf_pairs]
  simp
  rfl

/-- **C38.** Merging is associative. -/
theorem C38_assoc (a b c : List (Configuration κ υ)) :
    mergeConfigurations (mergeConfigurations a b) c = mergeConfigurations a (mergeConfigurations b c) := by
  rw [merge_eq (mergeConfigurations a b) c, merge_eq a (mergeConfigurations b c), pairs_merge, pairs_merge]
  congr 1
  rw [setAll_append, setAll_append, setAll_setAll _ _ (by simp), setAll_setAll _ _ (setAll_nodup _ _ (by simp)),
    ← setAll_append, ← setAll_append, ← pairs_append, ← pairs_append, List.append_assoc]

/-- **C38.** Merging with nothing keeps a list without repeated handlers. -/
theorem C38_empty (a : List (Configuration κ υ)) (h : (a.map (·.handler)).Nodup) :
    mergeConfigurations a [] = a ∧ mergeConfigurations [] a = a := by
  have hp : (pairs a).map (·.1) = a.map (·.handler) := by simp [pairs, Function.comp_def]
  have hd : ∀ (l ks : List κ), (ks ++ l).Nodup → addKeys ks l = ks ++ l := by
    intro l
    induction l with
    | nil => intro ks _; simp [addKeys]
    | cons x l ih =>
      intro ks hn
      have hx : x ∉ ks := by
        intro hm
        rw [List.nodup_append] at hn
        exact hn.2.2 x hm x (by simp) rfl
      have e : addKeys ks (x :: l) = addKeys (if x ∈ ks then ks else ks ++ [x]) l := rfl
      rw [e, if_neg hx, ih _ (by simpa using hn)]
      simp
  have hs : setAll [] (pairs a) = pairs a := by
    refine dict_ext _ _ (setAll_nodup _ _ (by simp)) ?_ ?_
    · rw [keys_setAll, hp]; simpa using hd (a.map (·.handler)) [] (by simpa using h)
    · intro x
      rw [lookup_setAll, lastOf_nodup _ (by rw [hp]; exact h)]
      simp
  have hm : (pairs a).map (·.2) = a := by
    unfold pairs; rw [List.map_map]; exact List.map_id a
  refine ⟨?_, ?_⟩ <;>
  · rw [merge_eq]
    simp only [pairs, List.map_nil, List.append_nil, List.nil_append]
    exact (congrArg (List.map (·.2)) hs).trans hm

/-- **C38.** Combining a sequence of solutions: the result fails exactly if one of them fails, with the first failure;
it carries the settings of the solutions up to and including the first failing one, later settings winning. -/
theorem C38_combine (s : Solution κ υ φ) (l : List (Solution κ υ φ)) (hs : s.failure = none) :
    (∀ t ∈ l, t.failure = none) ∧ l.foldl Solution.combine s =
      ⟨l.foldl (fun acc t => mergeConfigurations acc t.configuration) s.configuration, none⟩ ∨
    ∃ l1 t l2 f, l = l1 ++ t :: l2 ∧ (∀ u ∈ l1, u.failure = none) ∧ t.failure = some f ∧
      l.foldl Solution.combine s =
        ⟨mergeConfigurations (l1.foldl (fun acc t => mergeConfigurations acc t.configuration) s.configuration)
          t.configuration, some f⟩ := by
  have hfail : ∀ (l : List (Solution κ υ φ)) (s : Solution κ υ φ) (f : φ), s.failure = some f →
      l.foldl Solution.combine s = s := by
    intro l
    induction l with
    | nil => intro s f _; rfl
    | cons t l ih =>
      intro s f h
      have : s.combine t = s := by simp [Solution.combine, Solution.success, h]
      rw [List.foldl_cons, this]
      exact ih s f h
  induction l generalizing s with
  | nil =>
    left
    refine ⟨by simp, ?_⟩
    cases s
    simp only at hs
    simp [hs]
  | cons t l ih =>
    have hst : s.combine t = ⟨mergeConfigurations s.configuration t.configuration, t.failure⟩ := by
      simp [Solution.combine, Solution.success, hs]
    cases ht : t.failure with
    | none =>
      rcases ih (s.combine t) (by rw [hst]; exact ht) with ⟨h1, h2⟩ | ⟨l1, t', l2, f, h1, h2, h3, h4⟩
      · left
        refine ⟨?_, ?_⟩
        · intro u hu
          rcases List.mem_cons.1 hu with rfl | hu
          · exact ht
          · exact h1 u hu
        · rw [List.foldl_cons, h2, hst]
          rfl
      · right
        refine ⟨t :: l1, t', l2, f, by simp [h1], ?_, h3, ?_⟩
        · intro u hu
          rcases List.mem_cons.1 hu with rfl | hu
          · exact ht
          · exact h2 u hu
        · rw [List.foldl_cons, h4, hst]
          rfl
    | some f =>
      right
      refine ⟨[], t, l, f, rfl, by simp, ht, ?_⟩
      rw [List.foldl_cons, hfail l _ f (by rw [hst]; exact ht), hst, ht]
      rfl

/-- **C38.** Once a solution has failed, combining it with anything changes nothing. -/
theorem C38_failed_absorbs (s t : Solution κ υ φ) (f : φ) (hs : s.failure = some f) : s.combine t = s := by
  simp [Solution.combine, Solution.success, hs]

/-- **C38.** Combining solutions is associative. -/
theorem C38_combine_assoc (s t u : Solution κ υ φ) : (s.combine t).combine u = s.combine (t.combine u) := by
  cases hs : s.failure with
  | some f =>
    rw [C38_failed_absorbs s t f hs, C38_failed_absorbs s u f hs, C38_failed_absorbs s _ f hs]
  | none =>
    have e1 : ∀ t : Solution κ υ φ, s.combine t = ⟨mergeConfigurations s.configuration t.configuration, t.failure⟩ := by
      intro t; simp [Solution.combine, Solution.success, hs]
    cases ht : t.failure with
    | some f =>
      rw [C38_failed_absorbs t u f ht]
      exact C38_failed_absorbs _ u f (by rw [e1]; exact ht)
    | none =>
      have e2 : t.combine u = ⟨mergeConfigurations t.configuration u.configuration, u.failure⟩ := by
        simp [Solution.combine, Solution.success, ht]
      rw [e1 (t.combine u), e2, e1 t]
      simp [Solution.combine, Solution.success, ht, C38_assoc]

/-! ### Non-vacuity -/

example : mergeConfigurations [⟨"shaft", 10⟩, ⟨"choke", 1⟩] [⟨"loop", 5⟩, ⟨"shaft", 20⟩] =
    [⟨"shaft", 20⟩, ⟨"choke", 1⟩, ⟨"loop", 5⟩] := by decide +kernel

example : ([⟨[⟨"b", 2⟩], none⟩, ⟨[⟨"a", 3⟩], some "surge"⟩, ⟨[⟨"a", 4⟩], none⟩] :
      List (Solution String Nat String)).foldl Solution.combine ⟨[⟨"a", 1⟩], none⟩ =
    ⟨[⟨"a", 3⟩, ⟨"b", 2⟩], some "surge"⟩ := by decide +kernel

end Verif.C38
