import Verif.Model.Cache
import Verif.Lemmas.Graph

/-!
C36: the fluid cache is a bounded map that forgets the keys used longest ago.

The specification speaks about what a client observes: the trace of its calls since the cache was created or cleared,
with the outcome of each lookup.
-/

namespace Verif.C36

open Verif.Time Verif.Cache Verif.GraphLemmas

variable {κ ν : Type} [DecidableEq κ]

/-- A call on the cache. -/
inductive Op (κ ν : Type) where
  | get (k : κ)
  | put (k : κ) (v : ν)
  | clear

/-- What a client sees of a call. -/
inductive Event (κ ν : Type) where
  | hit (k : κ) (v : ν)
  | miss (k : κ)
  | stored (k : κ) (v : ν)

/-- Run one call; the trace restarts at `clear`. -/
def run1 (st : LRU κ ν × List (Event κ ν)) : Op κ ν → LRU κ ν × List (Event κ ν)
  | .get k => match st.1.get k with
    | (c, some v) => (c, st.2 ++ [.hit k v])
    | (c, none) => (c, st.2 ++ [.miss k])
  | .put k v => ((st.1.put k v).1, st.2 ++ [.stored k v])
  | .clear => (st.1.clear, [])

/-- Run a sequence of calls on a new cache. -/
def run (maxSize : Int) (ops : List (Op κ ν)) : LRU κ ν × List (Event κ ν) :=
  ops.foldl run1 (LRU.new maxSize, [])

/-- Specification: an event that uses a key: a store or a successful lookup. -/
def uses (k : κ) : Event κ ν → Bool
  | .hit k' _ => decide (k' = k)
  | .stored k' _ => decide (k' = k)
  | .miss _ => false

/-- Specification: the value last stored for a key. -/
def lastStored (k : κ) : List (Event κ ν) → Option ν
  | [] => none
  | e :: es => match lastStored k es with
    | some v => some v
    | none => match e with
      | .stored k' v => if k' = k then some v else none
      | _ => none

/-- Specification: the different keys used by some events. -/
def usedKeys : List (Event κ ν) → List κ
  | [] => []
  | .hit k _ :: es => if k ∈ usedKeys es then usedKeys es else k :: usedKeys es
  | .stored k _ :: es => if k ∈ usedKeys es then usedKeys es else k :: usedKeys es
  | .miss _ :: es => usedKeys es

/-- Specification: `k` was used, and fewer than `n` different keys have been used since its last use. -/
def Recent (n : Nat) (t : List (Event κ ν)) (k : κ) : Prop :=
  ∃ before e after, t = before ++ e :: after ∧ uses k e = true ∧ (∀ e' ∈ after, uses k e' = false) ∧
    (usedKeys after).length < n

/-! ### The recency list -/

/-- Keys by last use, the most recent first. -/
def recency : List (Event κ ν) → List κ → List κ
  | [], acc => acc
  | .hit k _ :: es, acc => recency es (k :: acc.filter fun x => decide (x ≠ k))
  | .stored k _ :: es, acc => recency es (k :: acc.filter fun x => decide (x ≠ k))
  | .miss _ :: es, acc => recency es acc

theorem recency_append (t s : List (Event κ ν)) (acc : List κ) :
    recency (t ++ s) acc = recency s (recency t acc) := by
  induction t generalizing acc with
  | nil => rfl
  | cons e t ih => cases e <;> simp only [List.cons_append, recency, ih]

theorem usedKeys_facts (t : List (Event κ ν)) :
    (usedKeys t).Nodup ∧ ∀ k, k ∈ usedKeys t ↔ ∃ e ∈ t, uses k e = true := by
  induction t with
  | nil => exact ⟨by simp [usedKeys], by simp [usedKeys]⟩
  | cons e t ih =>
    obtain ⟨h1, h2⟩ := ih
    have key : ∀ k : κ, (if k ∈ usedKeys t then usedKeys t else k :: usedKeys t).Nodup ∧
        ∀ x, x ∈ (if k ∈ usedKeys t then usedKeys t else k :: usedKeys t) ↔ x = k ∨ x ∈ usedKeys t := by
      intro k
      split
      · rename_i h
        refine ⟨h1, fun x => ⟨.inr, ?_⟩⟩
        rintro (rfl | h') <;> assumption
      · rename_i h
        exact ⟨List.nodup_cons.2 ⟨h, h1⟩, fun x => List.mem_cons⟩
    cases e with
    | hit k v =>
      refine ⟨(key k).1, fun x => ?_⟩
      rw [usedKeys, (key k).2, h2]
      simp only [List.mem_cons, exists_eq_or_imp]
      exact or_congr (by simp [uses, eq_comm]) Iff.rfl
    | stored k v =>
      refine ⟨(key k).1, fun x => ?_⟩
      rw [usedKeys, (key k).2, h2]
      simp only [List.mem_cons, exists_eq_or_imp]
      exact or_congr (by simp [uses, eq_comm]) Iff.rfl
    | miss k =>
      refine ⟨h1, fun x => ?_⟩
      simp only [usedKeys, h2, List.mem_cons, exists_eq_or_imp, uses, Bool.false_eq_true, false_or]

/-- After further events the list starts with the keys they used, followed by the others in their old order. -/
theorem recency_split (t : List (Event κ ν)) : ∀ acc : List κ, ∃ front : List κ,
    recency t acc = front ++ acc.filter (fun x => decide (x ∉ usedKeys t)) ∧ front.Nodup ∧
    ∀ k, k ∈ front ↔ k ∈ usedKeys t := by
  induction t with
  | nil => intro acc; exact ⟨[], by simp [recency, usedKeys], by simp, by simp [usedKeys]⟩
  | cons e t ih =>
    intro acc
    have key : ∀ k : κ, ∃ front : List κ,
        recency t (k :: acc.filter fun x => decide (x ≠ k)) =
          front ++ acc.filter (fun x => decide (x ∉ (if k ∈ usedKeys t then usedKeys t else k :: usedKeys t))) ∧
        front.Nodup ∧ ∀ x, x ∈ front ↔ x ∈ (if k ∈ usedKeys t then usedKeys t else k :: usedKeys t) := by
      intro k
      obtain ⟨front, e1, e2, e3⟩ := ih (k :: acc.filter fun x => decide (x ≠ k))
      by_cases hk : k ∈ usedKeys t
      · refine ⟨front, ?_, e2, by simpa [hk] using e3⟩
        rw [e1, List.filter_cons_of_neg (by simp [hk]), List.filter_filter]
        congr 1
        apply List.filter_congr
        intro x _
        by_cases hx : x = k
        · subst hx; simp [hk]
        · simp [hx, hk]
      · refine ⟨front ++ [k], ?_, ?_, ?_⟩
        · rw [e1, List.filter_cons_of_pos (by simp [hk]), List.filter_filter]
          simp only [List.append_assoc, List.singleton_append, hk, if_false]
          congr 2
          apply List.filter_congr
          intro x _
          by_cases hx : x = k
          · subst hx; simp
          · simp [hx]
        · rw [List.nodup_append]
          refine ⟨e2, by simp, ?_⟩
          intro a ha b hb hab
          simp only [List.mem_singleton] at hb
          rw [hab, hb] at ha
          exact hk ((e3 k).1 ha)
        · intro x
          simp only [List.mem_append, e3, hk, if_false, List.mem_cons, List.not_mem_nil, or_false]
          exact or_comm
    cases e with
    | hit k v => exact key k
    | stored k v => exact key k
    | miss k => exact ih acc

theorem recency_nodup (t : List (Event κ ν)) : (recency t ([] : List κ)).Nodup := by
  obtain ⟨front, e, h, -⟩ := recency_split t ([] : List κ)
  rw [e]; simpa using h

theorem recency_mem (t : List (Event κ ν)) (k : κ) : k ∈ recency t [] ↔ ∃ e ∈ t, uses k e = true := by
  obtain ⟨front, e, -, h⟩ := recency_split t ([] : List κ)
  rw [e, ← (usedKeys_facts t).2]
  simpa using h k

/-- The last use of a key. -/
theorem last_use (t : List (Event κ ν)) (k : κ) (h : ∃ e ∈ t, uses k e = true) :
    ∃ before e after, t = before ++ e :: after ∧ uses k e = true ∧ ∀ e' ∈ after, uses k e' = false := by
  induction t with
  | nil => simp at h
  | cons e t ih =>
    by_cases hin : ∃ e ∈ t, uses k e = true
    · obtain ⟨b, e', a, h1, h2, h3⟩ := ih hin
      exact ⟨e :: b, e', a, by simp [h1], h2, h3⟩
    · refine ⟨[], e, t, rfl, ?_, ?_⟩
      · obtain ⟨e', he', hu⟩ := h
        rcases List.mem_cons.1 he' with rfl | h'
        · exact hu
        · exact absurd ⟨e', h', hu⟩ hin
      · intro e' he'
        have : ¬ uses k e' = true := fun hu => hin ⟨e', he', hu⟩
        simpa using this

/-- The first `n` keys of the recency list are the recent ones. -/
theorem take_iff (n : Nat) (t : List (Event κ ν)) (k : κ) : k ∈ (recency t []).take n ↔ Recent n t k := by
  have key : ∀ before e after, t = before ++ e :: after → uses k e = true → (∀ e' ∈ after, uses k e' = false) →
      (k ∈ (recency t []).take n ↔ (usedKeys after).length < n) := by
    intro before e after ht he ha
    have hrec : ∃ rest, recency (before ++ [e]) [] = k :: rest := by
      rw [recency_append]
      cases e with
      | hit k' v => simp only [uses, decide_eq_true_eq] at he; subst he; exact ⟨_, rfl⟩
      | stored k' v => simp only [uses, decide_eq_true_eq] at he; subst he; exact ⟨_, rfl⟩
      | miss k' => simp [uses] at he
    obtain ⟨rest, hrest⟩ := hrec
    have hk : k ∉ usedKeys after := by
      intro hm
      obtain ⟨e', he', hu⟩ := ((usedKeys_facts after).2 k).1 hm
      rw [ha e' he'] at hu; simp at hu
    have ht' : t = (before ++ [e]) ++ after := by simp [ht]
    obtain ⟨front, e1, e2, e3⟩ := recency_split after (k :: rest)
    have hperm : front.length = (usedKeys after).length := by
      have h1 := (List.subperm_of_subset e2 fun x hx => (e3 x).1 hx).length_le
      have h2 := (List.subperm_of_subset (usedKeys_facts after).1 fun x hx => (e3 x).2 hx).length_le
      omega
    have hr : recency t [] = front ++ k :: rest.filter (fun x => decide (x ∉ usedKeys after)) := by
      rw [ht', recency_append, hrest, e1, List.filter_cons_of_pos (by simp [hk])]
    have hnd := recency_nodup t
    have hkf : k ∉ front := fun h => hk ((e3 k).1 h)
    rw [← hperm, hr, List.take_append, List.mem_append]
    constructor
    · rintro (h | h)
      · exact absurd (List.mem_of_mem_take h) hkf
      · by_contra hge
        have : n - front.length = 0 := by omega
        rw [this] at h; simp at h
    · intro hlt
      right
      obtain ⟨m, hm⟩ : ∃ m, n - front.length = m + 1 := ⟨n - front.length - 1, by omega⟩
      rw [hm]; simp
  constructor
  · intro h
    obtain ⟨b, e, a, h1, h2, h3⟩ := last_use t k ((recency_mem t k).1 (List.mem_of_mem_take h))
    exact ⟨b, e, a, h1, h2, h3, (key b e a h1 h2 h3).1 h⟩
  · rintro ⟨b, e, a, h1, h2, h3, h4⟩
    exact (key b e a h1 h2 h3).2 h4

theorem lastStored_append (k : κ) (t s : List (Event κ ν)) :
    lastStored k (t ++ s) = (lastStored k s).or (lastStored k t) := by
  induction t with
  | nil => simp [lastStored]
  | cons e t ih =>
    simp only [List.cons_append, lastStored, ih]
    cases h1 : lastStored k s <;> cases h2 : lastStored k t <;> simp

/-! ### The invariant -/

theorem filter_eq_lookup (k : κ) (l : List (κ × ν)) (v : ν) (hnd : (l.map (·.1)).Nodup) (h : l.lookup k = some v) :
    l.filter (fun e => decide (e.1 = k)) = [(k, v)] := by
  induction l with
  | nil => simp at h
  | cons p l ih =>
    obtain ⟨k', v'⟩ := p
    simp only [List.map_cons, List.nodup_cons] at hnd
    by_cases hk : k = k'
    · subst hk
      simp only [List.lookup, beq_self_eq_true, Option.some.injEq] at h
      subst h
      have : l.filter (fun e => decide (e.1 = k)) = [] := by
        rw [List.filter_eq_nil_iff]
        intro e he
        simp only [decide_eq_true_eq]
        intro hek
        exact hnd.1 (hek ▸ List.mem_map.2 ⟨e, he, rfl⟩)
      simp [this]
    · have hb : (k == k') = false := by simp [hk]
      simp only [List.lookup, hb] at h
      rw [List.filter_cons_of_neg (by simpa using fun h => hk h.symm)]
      exact ih hnd.2 h

theorem dictSet_absent (k : κ) (v : ν) (l : List (κ × ν)) (h : k ∉ l.map (·.1)) : dictSet k v l = l ++ [(k, v)] := by
  induction l with
  | nil => rfl
  | cons p l ih =>
    obtain ⟨k', v'⟩ := p
    simp only [List.map_cons, List.mem_cons, not_or] at h
    have : ¬ k' = k := fun e => h.1 e.symm
    simp [dictSet, this, ih h.2]

theorem dictSet_last (k : κ) (v v' : ν) (l : List (κ × ν)) (h : k ∉ l.map (·.1)) :
    dictSet k v (l ++ [(k, v')]) = l ++ [(k, v)] := by
  induction l with
  | nil => simp [dictSet]
  | cons p l ih =>
    obtain ⟨k', v''⟩ := p
    simp only [List.map_cons, List.mem_cons, not_or] at h
    have : ¬ k' = k := fun e => h.1 e.symm
    simp [dictSet, this, ih h.2]

omit [DecidableEq κ] in
theorem evict_small (n : Int) (l : List (κ × ν)) (h : (l.length : Int) ≤ n) :
    evict n l = (l, 0, false) := by
  cases l with
  | nil => simp only [List.length_nil] at h; simp [evict]; omega
  | cons e l =>
    unfold evict
    rw [if_neg]
    simp only [List.length_cons] at h
    omega

/-- What relates the cache to the trace. -/
structure Inv (n : Nat) (c : LRU κ ν) (t : List (Event κ ν)) : Prop where
  size : c.maxSize = (n : Int)
  keys : (c.entries.map (·.1)).reverse = (recency t []).take n
  values : ∀ k v, c.entries.lookup k = some v → lastStored k t = some v
  hits : c.hits = t.countP fun e => match e with | .hit _ _ => true | _ => false
  misses : c.misses = t.countP fun e => match e with | .miss _ => true | _ => false

theorem inv_nodup {n : Nat} {c : LRU κ ν} {t : List (Event κ ν)} (h : Inv n c t) : (c.entries.map (·.1)).Nodup := by
  have : ((c.entries.map (·.1)).reverse).Nodup := by
    rw [h.keys]; exact (recency_nodup t).sublist (List.take_sublist _ _)
  simpa using this

theorem inv_length {n : Nat} {c : LRU κ ν} {t : List (Event κ ν)} (h : Inv n c t) : c.entries.length ≤ n := by
  have := congrArg List.length h.keys
  simp only [List.length_reverse, List.length_map, List.length_take] at this
  omega

theorem take_filter_mem (R : List κ) (k : κ) (hnd : R.Nodup) : ∀ n, k ∈ R.take n →
    (k :: R.filter fun x => decide (x ≠ k)).take n = k :: (R.take n).filter fun x => decide (x ≠ k) := by
  induction R with
  | nil => intro n h; simp at h
  | cons a R ih =>
    intro n h
    cases n with
    | zero => simp at h
    | succ n =>
      rw [List.nodup_cons] at hnd
      simp only [List.take_succ_cons]
      by_cases ha : a = k
      · subst ha
        have hf : ∀ l : List κ, a ∉ l → l.filter (fun x => decide (x ≠ a)) = l := by
          intro l hl
          rw [List.filter_eq_self]
          intro x hx
          simpa using fun e => hl (by rw [← e]; exact hx)
        rw [List.filter_cons_of_neg (by simp), List.filter_cons_of_neg (by simp), hf R hnd.1,
          hf (R.take n) (fun hm => hnd.1 (List.mem_of_mem_take hm))]
      · rw [List.filter_cons_of_pos (by simp [ha]), List.filter_cons_of_pos (by simp [ha])]
        simp only [List.take_succ_cons, List.mem_cons] at h
        have hm : k ∈ R.take n := by
          rcases h with h | h
          · exact absurd h.symm ha
          · exact h
        cases n with
        | zero => simp at hm
        | succ m =>
          have := ih hnd.2 (m + 1) hm
          simp only [List.take_succ_cons, List.cons.injEq, true_and] at this
          simp only [List.take_succ_cons, List.cons.injEq, true_and]
          exact this

theorem take_filter_absent (R : List κ) (k : κ) : ∀ n, k ∉ R.take n →
    (k :: R.filter fun x => decide (x ≠ k)).take (n + 1) = k :: R.take n := by
  intro n h
  simp only [List.take_succ_cons, List.cons.injEq, true_and]
  induction R generalizing n with
  | nil => simp
  | cons a R ih =>
    cases n with
    | zero => simp
    | succ n =>
      simp only [List.take_succ_cons, List.mem_cons, not_or] at h
      rw [List.filter_cons_of_pos (by simpa using fun e => h.1 e.symm)]
      simp only [List.take_succ_cons, List.cons.injEq, true_and]
      exact ih n h.2

theorem lookup_mem_keys {n : Nat} {c : LRU κ ν} {t : List (Event κ ν)} (h : Inv n c t) (k : κ) :
    (∃ v, c.entries.lookup k = some v) ↔ k ∈ (recency t []).take n := by
  rw [← h.keys, List.mem_reverse, ← lookup_isSome, Option.isSome_iff_exists]

theorem keys_move (k : κ) (l : List (κ × ν)) (v : ν) (hnd : (l.map (·.1)).Nodup) (h : l.lookup k = some v) :
    moveToEnd k l = l.filter (fun e => decide (e.1 ≠ k)) ++ [(k, v)] := by
  unfold moveToEnd; rw [filter_eq_lookup k l v hnd h]

theorem map_filter_keys (k : κ) (l : List (κ × ν)) :
    (l.filter (fun e => decide (e.1 ≠ k))).map (·.1) = (l.map (·.1)).filter fun x => decide (x ≠ k) := by
  rw [List.filter_map]; rfl

theorem lookup_append (l : List (κ × ν)) (k x : κ) (v : ν) (h : k ∉ l.map (·.1)) :
    (l ++ [(k, v)]).lookup x = if x = k then some v else l.lookup x := by
  rw [← dictSet_absent k v l h, lookup_dictSet]

theorem inv_get {n : Nat} {c : LRU κ ν} {t : List (Event κ ν)} (h : Inv n c t) (k : κ) :
    (∀ v, c.entries.lookup k = some v → Inv n (c.get k).1 (t ++ [.hit k v])) ∧
    (c.entries.lookup k = none → Inv n (c.get k).1 (t ++ [.miss k])) := by
  refine ⟨?_, ?_⟩
  · intro v hv
    have hnd := inv_nodup h
    have hmem := (lookup_mem_keys h k).1 ⟨v, hv⟩
    have hnot : k ∉ (c.entries.filter (fun e => decide (e.1 ≠ k))).map (·.1) := by
      rw [map_filter_keys]; simp
    simp only [LRU.get, hv]
    refine ⟨h.size, ?_, ?_, ?_, ?_⟩
    · simp only [keys_move k c.entries v hnd hv, List.map_append, List.reverse_append, List.map_cons, List.map_nil,
        List.reverse_singleton, List.singleton_append, map_filter_keys, ← List.filter_reverse, h.keys]
      rw [recency_append]
      simp only [recency]
      exact (take_filter_mem _ k (recency_nodup t) n hmem).symm
    · intro x w hw
      simp only [keys_move k c.entries v hnd hv, lookup_append _ k x v hnot] at hw
      rw [lastStored_append]
      simp only [lastStored, Option.none_or]
      split at hw
      · rename_i hx
        subst hx
        simp only [Option.some.injEq] at hw
        subst hw
        exact h.values x v hv
      · rename_i hx
        rw [lookup_filter_ne, if_neg hx] at hw
        exact h.values x w hw
    · simp [List.countP_append, h.hits]
    · simp [List.countP_append, h.misses]
  · intro hv
    simp only [LRU.get, hv]
    refine ⟨h.size, ?_, ?_, ?_, ?_⟩
    · rw [recency_append]; simpa [recency] using h.keys
    · intro x w hw
      rw [lastStored_append]
      simpa [lastStored] using h.values x w hw
    · simp [List.countP_append, h.hits]
    · simp [List.countP_append, h.misses]

/-- The list of entries before eviction. -/
theorem put_list {n : Nat} {c : LRU κ ν} {t : List (Event κ ν)} (h : Inv n c t) (k : κ) (v : ν) :
    dictSet k v (if k ∈ c.entries.map (·.1) then moveToEnd k c.entries else c.entries) =
      c.entries.filter (fun e => decide (e.1 ≠ k)) ++ [(k, v)] := by
  have hnot : k ∉ (c.entries.filter (fun e => decide (e.1 ≠ k))).map (·.1) := by
    rw [map_filter_keys]; simp
  split
  · rename_i hk
    obtain ⟨v', hv'⟩ := Option.isSome_iff_exists.1 ((lookup_isSome c.entries k).2 hk)
    rw [keys_move k c.entries v' (inv_nodup h) hv', dictSet_last k v v' _ hnot]
  · rename_i hk
    have : c.entries.filter (fun e => decide (e.1 ≠ k)) = c.entries := by
      rw [List.filter_eq_self]
      intro e he
      simp only [decide_eq_true_eq]
      intro hek
      exact hk (hek ▸ List.mem_map.2 ⟨e, he, rfl⟩)
    rw [this, dictSet_absent k v _ hk]

theorem inv_put {n : Nat} {c : LRU κ ν} {t : List (Event κ ν)} (h : Inv n c t) (k : κ) (v : ν) :
    Inv n (c.put k v).1 (t ++ [.stored k v]) ∧ (c.put k v).2 = .ok () := by
  by_cases hn : n = 0
  · subst hn
    have h0 : c.maxSize = 0 := by rw [h.size]; rfl
    have he : c.entries = [] := List.length_eq_zero_iff.1 (Nat.le_zero.1 (inv_length h))
    simp only [LRU.put, h0, if_true, and_true]
    refine ⟨h.size, ?_, ?_, ?_, ?_⟩
    · simp [he]
    · intro x w hw; rw [he] at hw; simp at hw
    · simp [List.countP_append, h.hits]
    · simp [List.countP_append, h.misses]
  · have h0 : ¬ c.maxSize = 0 := by rw [h.size]; omega
    have hlen := inv_length h
    have hnot : k ∉ (c.entries.filter (fun e => decide (e.1 ≠ k))).map (·.1) := by
      rw [map_filter_keys]; simp
    simp only [LRU.put, h0, if_false, put_list h k v]
    by_cases hk : k ∈ c.entries.map (·.1)
    · -- the key was there: nothing is evicted
      have hmem : k ∈ (recency t []).take n := by rw [← h.keys, List.mem_reverse]; exact hk
      have hl : (c.entries.filter (fun e => decide (e.1 ≠ k))).length < c.entries.length := by
        obtain ⟨e, he, hek⟩ := List.mem_map.1 hk
        exact List.length_filter_lt_length_iff_exists.2 ⟨e, he, by simp [hek]⟩
      rw [evict_small _ _ (by rw [h.size]; simp only [List.length_append, List.length_singleton]; omega)]
      refine ⟨⟨h.size, ?_, ?_, ?_, ?_⟩, rfl⟩
      · simp only [List.map_append, List.reverse_append, List.map_cons, List.map_nil,
          List.reverse_singleton, List.singleton_append, map_filter_keys, ← List.filter_reverse, h.keys]
        rw [recency_append]
        simp only [recency]
        exact (take_filter_mem _ k (recency_nodup t) n hmem).symm
      · intro x w hw
        simp only [lookup_append _ k x v hnot] at hw
        rw [lastStored_append]
        split at hw
        · rename_i hx; subst hx; simp only [Option.some.injEq] at hw; simp [lastStored, hw]
        · rename_i hx
          rw [lookup_filter_ne, if_neg hx] at hw
          have hkx : ¬ k = x := fun e => hx e.symm
          simp [lastStored, hkx, h.values x w hw]
      · simp [List.countP_append, h.hits]
      · simp [List.countP_append, h.misses]
    · have hfil : c.entries.filter (fun e => decide (e.1 ≠ k)) = c.entries := by
        rw [List.filter_eq_self]
        intro e he
        simp only [decide_eq_true_eq]
        intro hek
        exact hk (hek ▸ List.mem_map.2 ⟨e, he, rfl⟩)
      have hmem : k ∉ (recency t []).take n := by rw [← h.keys, List.mem_reverse]; exact hk
      have hval : ∀ x w, (c.entries ++ [(k, v)]).lookup x = some w → lastStored x (t ++ [.stored k v]) = some w := by
        intro x w hw
        rw [lookup_append _ k x v hk] at hw
        rw [lastStored_append]
        split at hw
        · rename_i hx; subst hx; simp only [Option.some.injEq] at hw; simp [lastStored, hw]
        · rename_i hx
          have hkx : ¬ k = x := fun e => hx e.symm
          simp [lastStored, hkx, h.values x w hw]
      rw [hfil]
      obtain ⟨m, rfl⟩ : ∃ m, n = m + 1 := ⟨n - 1, by omega⟩
      have hmem' : k ∉ (recency t []).take m := by
        intro hc
        have : (recency t []).take m = ((recency t []).take (m + 1)).take m := by
          rw [List.take_take]; congr 1; omega
        rw [this] at hc
        exact hmem (List.mem_of_mem_take hc)
      have hkeys : ((recency (t ++ [.stored k v]) []).take (m + 1)) = k :: (recency t []).take m := by
        rw [recency_append]
        simp only [recency]
        exact take_filter_absent _ k m hmem'
      have hrev : ∀ j, ((c.entries.map (·.1)).reverse).take j = (recency t []).take (min j (m + 1)) := by
        intro j; rw [h.keys, List.take_take]
      by_cases hfull : c.entries.length < m + 1
      · -- room for one more
        rw [evict_small _ _ (by rw [h.size]; simp only [List.length_append, List.length_singleton]; omega)]
        refine ⟨⟨h.size, ?_, hval, ?_, ?_⟩, rfl⟩
        · simp only [List.map_append, List.reverse_append, List.map_cons, List.map_nil, List.reverse_singleton,
            List.singleton_append]
          rw [hkeys, h.keys]
          congr 1
          have hlen2 := congrArg List.length h.keys
          simp only [List.length_reverse, List.length_map, List.length_take] at hlen2
          rw [List.take_of_length_le (by omega), List.take_of_length_le (by omega)]
        · simp [List.countP_append, h.hits]
        · simp [List.countP_append, h.misses]
      · -- the oldest entry goes
        have hlm : c.entries.length = m + 1 := by omega
        cases hent : c.entries with
        | nil => rw [hent] at hlm; simp at hlm
        | cons e0 rest =>
          have hlr : rest.length = m := by rw [hent] at hlm; simpa using hlm
          have hev : evict c.maxSize ((e0 :: rest) ++ [(k, v)]) = (rest ++ [(k, v)], 1, false) := by
            rw [h.size, List.cons_append]
            unfold evict
            rw [if_pos (by simp only [List.length_append, List.length_singleton]; omega)]
            rw [evict_small _ _ (by simp only [List.length_append, List.length_singleton]; omega)]
          rw [hev]
          refine ⟨⟨h.size, ?_, ?_, ?_, ?_⟩, rfl⟩
          · simp only [List.map_append, List.reverse_append, List.map_cons, List.map_nil, List.reverse_singleton,
              List.singleton_append]
            rw [hkeys]
            congr 1
            have := hrev m
            rw [hent] at this
            simp only [List.map_cons, List.reverse_cons] at this
            rw [List.take_append_of_le_length (by simp [hlr]), List.take_of_length_le (by simp [hlr])] at this
            rw [this]; congr 1; omega
          · intro x w hw
            apply hval
            rw [hent]
            have hnd := inv_nodup h
            rw [hent] at hnd hk
            simp only [List.map_cons, List.nodup_cons] at hnd
            simp only at hw
            have hx0 : x ≠ e0.1 := by
              rintro rfl
              have hm := (lookup_isSome (rest ++ [(k, v)]) e0.1).1 (by rw [hw]; rfl)
              simp only [List.map_append, List.mem_append, List.map_cons, List.map_nil, List.mem_singleton] at hm
              rcases hm with hm | hm
              · exact hnd.1 hm
              · exact hk (by simp [hm])
            have hb : (x == e0.1) = false := by simp [hx0]
            simp only [List.cons_append, List.lookup, hb]
            exact hw
          · simp [List.countP_append, h.hits]
          · simp [List.countP_append, h.misses]

theorem inv_run (n : Nat) (ops : List (Op κ ν)) : Inv n (run (n : Int) ops).1 (run (n : Int) ops).2 := by
  have hnew : Inv n (LRU.new (n : Int) : LRU κ ν) [] :=
    ⟨rfl, by simp [LRU.new, recency], by simp [LRU.new], rfl, rfl⟩
  unfold run
  have key : ∀ (ops : List (Op κ ν)) (st : LRU κ ν × List (Event κ ν)), Inv n st.1 st.2 →
      Inv n (ops.foldl run1 st).1 (ops.foldl run1 st).2 := by
    intro ops
    induction ops with
    | nil => intro st h; exact h
    | cons op ops ih =>
      intro st h
      refine ih _ ?_
      cases op with
      | get k =>
        obtain ⟨g1, g2⟩ := inv_get h k
        cases hl : st.1.entries.lookup k with
        | some v =>
          have := g1 v hl
          simp only [run1, LRU.get, hl] at this ⊢
          exact this
        | none =>
          have := g2 hl
          simp only [run1, LRU.get, hl] at this ⊢
          exact this
      | put k v => exact (inv_put h k v).1
      | clear => exact ⟨h.size, by simp [run1, LRU.clear, recency], by simp [run1, LRU.clear], rfl, rfl⟩
  exact key ops _ hnew

/-- **C36.** After any sequence of calls, looking up a key gives the value last stored for it, provided fewer than
`max_size` different keys have been used since its last use, and nothing otherwise. -/
theorem C36_lookup (n : Nat) (ops : List (Op κ ν)) (k : κ) :
    (Recent n (run (n : Int) ops).2 k →
      ∃ v, lastStored k (run (n : Int) ops).2 = some v ∧ ((run (n : Int) ops).1.get k).2 = some v) ∧
    (¬ Recent n (run (n : Int) ops).2 k → ((run (n : Int) ops).1.get k).2 = none) := by
  have h := inv_run n ops
  rw [← take_iff, ← lookup_mem_keys h k]
  refine ⟨?_, ?_⟩
  · rintro ⟨v, hv⟩
    exact ⟨v, h.values k v hv, by simp [LRU.get, hv]⟩
  · intro hno
    cases hl : (run (n : Int) ops).1.entries.lookup k with
    | none => simp [LRU.get, hl]
    | some v => exact absurd ⟨v, hl⟩ hno

/-- **C36.** The cache never holds more than `max_size` entries, nor two entries for one key. -/
theorem C36_bounded (n : Nat) (ops : List (Op κ ν)) :
    (run (n : Int) ops).1.size ≤ n ∧ ((run (n : Int) ops).1.entries.map (·.1)).Nodup ∧
    (run (n : Int) ops).1.maxSize = (n : Int) :=
  ⟨inv_length (inv_run n ops), inv_nodup (inv_run n ops), (inv_run n ops).size⟩

/-- **C36.** The counters are the numbers of successful and failed lookups since the cache was last cleared. -/
theorem C36_counters (n : Nat) (ops : List (Op κ ν)) :
    (run (n : Int) ops).1.hits =
      (run (n : Int) ops).2.countP (fun e => match e with | .hit _ _ => true | _ => false) ∧
    (run (n : Int) ops).1.misses =
      (run (n : Int) ops).2.countP (fun e => match e with | .miss _ => true | _ => false) :=
  ⟨(inv_run n ops).hits, (inv_run n ops).misses⟩

/-- **C36.** Storing never fails for a non-negative size. -/
theorem C36_put_ok (n : Nat) (ops : List (Op κ ν)) (k : κ) (v : ν) : ((run (n : Int) ops).1.put k v).2 = .ok () :=
  (inv_put (inv_run n ops) k v).2

/-- **C36.** What was just stored is found, unless the cache is disabled. -/
theorem C36_put_get (n : Nat) (hn : 0 < n) (ops : List (Op κ ν)) (k : κ) (v : ν) :
    (((run (n : Int) ops).1.put k v).1.get k).2 = some v := by
  have h := C36_lookup n (ops ++ [.put k v]) k
  have hrun : run (n : Int) (ops ++ [.put k v]) =
      (((run (n : Int) ops).1.put k v).1, (run (n : Int) ops).2 ++ [.stored k v]) := by
    unfold run; rw [List.foldl_append]; rfl
  rw [hrun] at h
  obtain ⟨w, h1, h2⟩ := h.1 ⟨(run (n : Int) ops).2, .stored k v, [], rfl, by simp [uses], by simp, by simpa [usedKeys]⟩
  rw [lastStored_append] at h1
  simp only [lastStored, if_true, Option.some_or, Option.some.injEq] at h1
  rw [← h1] at h2; exact h2

/-- **C36.** Storing evicts exactly one entry when the key is not found and the cache is full, and none otherwise; the
counter of evictions counts them. -/
theorem C36_evictions (n : Nat) (hn : 0 < n) (ops : List (Op κ ν)) (k : κ) (v : ν) :
    ((run (n : Int) ops).1.put k v).1.evictions = (run (n : Int) ops).1.evictions +
      (if ((run (n : Int) ops).1.get k).2.isNone ∧ (run (n : Int) ops).1.size = n then 1 else 0) := by
  have h := inv_run n ops
  generalize (run (n : Int) ops).1 = c at h ⊢
  generalize (run (n : Int) ops).2 = t at h
  have h0 : ¬ c.maxSize = 0 := by rw [h.size]; omega
  have hlen := inv_length h
  have hsz : c.size = c.entries.length := rfl
  rw [hsz]
  simp only [LRU.put, h0, if_false, put_list h k v]
  congr 1
  have hget : (c.get k).2 = c.entries.lookup k := by
    unfold LRU.get; cases c.entries.lookup k <;> rfl
  rw [hget]
  by_cases hk : k ∈ c.entries.map (·.1)
  · have hs := (lookup_isSome c.entries k).2 hk
    have hl : (c.entries.filter (fun e => decide (e.1 ≠ k))).length < c.entries.length := by
      obtain ⟨e, he, hek⟩ := List.mem_map.1 hk
      exact List.length_filter_lt_length_iff_exists.2 ⟨e, he, by simp [hek]⟩
    rw [evict_small _ _ (by rw [h.size]; simp only [List.length_append, List.length_singleton]; omega), if_neg]
    rintro ⟨h1, -⟩
    rw [Option.isNone_iff_eq_none] at h1
    rw [h1] at hs; simp at hs
  · have hnone : (c.entries.lookup k).isNone = true := by
      cases hl : c.entries.lookup k with
      | none => rfl
      | some w => exact absurd ((lookup_isSome c.entries k).1 (by simp [hl])) hk
    have hfil : c.entries.filter (fun e => decide (e.1 ≠ k)) = c.entries := by
      rw [List.filter_eq_self]
      intro e he
      simp only [decide_eq_true_eq]
      intro hek
      exact hk (hek ▸ List.mem_map.2 ⟨e, he, rfl⟩)
    rw [hfil]
    by_cases hfull : c.entries.length = n
    · rw [if_pos ⟨hnone, hfull⟩]
      cases hent : c.entries with
      | nil => rw [hent] at hfull; simp at hfull; omega
      | cons e0 rest =>
        have hlr : rest.length + 1 = n := by rw [hent] at hfull; simpa using hfull
        rw [h.size, List.cons_append]
        unfold evict
        rw [if_pos (by simp only [List.length_append, List.length_singleton]; omega),
          evict_small _ _ (by simp only [List.length_append, List.length_singleton]; omega)]
    · rw [if_neg (fun hc => hfull hc.2),
        evict_small _ _ (by rw [h.size]; simp only [List.length_append, List.length_singleton]; omega)]

/-- **C36.** With size 0 nothing is ever found. -/
theorem C36_disabled (ops : List (Op κ ν)) (k : κ) : ((run 0 ops).1.get k).2 = none := by
  refine (C36_lookup 0 ops k).2 ?_
  rintro ⟨_, _, _, _, _, _, h⟩
  omega

/-- A negative size is accepted, but the first `put` fails with a `KeyError`. -/
theorem C36_negative_size (n : Int) (hn : n < 0) (k : κ) (v : ν) :
    ((LRU.new n : LRU κ ν).put k v).2 = .error .keyError := by
  have h0 : ¬ n = 0 := by omega
  have h1 : (1 : Int) > n := by omega
  have h2 : (0 : Int) > n := by omega
  simp [LRU.put, LRU.new, h0, dictSet, evict, h1, h2]

/-! ### The registry of caches -/

omit [DecidableEq κ] in
/-- **C36.** Creating a cache under a used name returns the existing cache with its content and its own size; all other
caches stay as they are. -/
theorem C36_create_existing (r : Registry κ ν) (name : String) (c : LRU κ ν) (h : r.lookup name = some c) (n : Int) :
    r.create name n = (r, c) := by
  simp [Registry.create, h]

omit [DecidableEq κ] in
/-- **C36.** Creating a cache under a new name registers an empty cache of the requested size. -/
theorem C36_create_new (r : Registry κ ν) (name : String) (h : r.lookup name = none) (n : Int) :
    (r.create name n).2 = LRU.new n ∧ (r.create name n).1.lookup name = some (LRU.new n) ∧
    ∀ other, other ≠ name → (r.create name n).1.lookup other = r.lookup other := by
  simp only [Registry.create, h, lookup_dictSet, if_true, true_and]
  intro other ho
  rw [if_neg ho]

omit [DecidableEq κ] in
theorem lookup_map (r : Registry κ ν) (f : String → LRU κ ν → LRU κ ν) (x : String) :
    List.lookup x (r.map fun e => (e.1, f e.1 e.2)) = (r.lookup x).map (f x) := by
  induction r with
  | nil => rfl
  | cons e r ih =>
    obtain ⟨k, c⟩ := e
    by_cases h : x = k
    · subst h; simp [List.lookup]
    · have hb : (x == k) = false := by simp [h]
      simp only [List.map_cons, List.lookup, hb]; exact ih

omit [DecidableEq κ] in
/-- **C36.** Clearing all caches empties every cache and its counters and keeps their sizes. -/
theorem C36_clear_all (r : Registry κ ν) (name : String) :
    r.clearAll.lookup name = (r.lookup name).map fun c => LRU.new c.maxSize := by
  exact lookup_map r (fun _ c => c.clear) name

omit [DecidableEq κ] in
/-- **C36.** Clearing one cache leaves the others alone. -/
theorem C36_clear_one (r : Registry κ ν) (name other : String) :
    (r.clearOne name).lookup other =
      if other = name then (r.lookup other).map (fun c => LRU.new c.maxSize) else r.lookup other := by
  unfold Registry.clearOne
  split
  · have hm : r.modify name LRU.clear = r.map fun e => (e.1, (fun x c => if x = name then LRU.clear c else c) e.1 e.2) := by
      unfold Registry.modify
      apply List.map_congr_left
      intro e _
      by_cases h : e.1 = name <;> simp [h]
    rw [hm, lookup_map r (fun x c => if x = name then LRU.clear c else c) other]
    by_cases h : other = name
    · simp only [h, if_true]; rfl
    · simp [h]
  · rename_i hno
    by_cases h : other = name
    · subst h
      have : r.lookup other = none := by
        cases hl : r.lookup other with
        | none => rfl
        | some c => exact absurd ((lookup_isSome r other).1 (by simp [hl])) hno
      simp [this]
    · simp [h]

/-! ### Non-vacuity -/

/-- Two keys fit; `1` is refreshed by a lookup, so `2` is the one that goes. -/
example : (run (κ := Nat) (ν := Nat) 2 [.put 1 10, .put 2 20, .get 1, .put 3 30]).1 =
    ⟨[(1, 10), (3, 30)], 2, 1, 0, 1⟩ := by decide +kernel

example : Recent 2 (run (κ := Nat) (ν := Nat) 2 [.put 1 10, .put 2 20, .get 1, .put 3 30]).2 1 ∧
    ¬ Recent 2 (run (κ := Nat) (ν := Nat) 2 [.put 1 10, .put 2 20, .get 1, .put 3 30]).2 2 := by
  rw [← take_iff, ← take_iff]
  decide +kernel

end Verif.C36
