import Verif.Props.C24

/-!
# C26: priority optimisation picks the first feasible priority
-/

namespace Verif.C26
open Verif.Time Verif.Rates Verif.System Verif.C24

/-! ## Specification -/

/-- All results of a priority are valid. -/
def Feasible {R : Type} (evaluator : String → List (EvalResult R)) (p : String) : Prop :=
  ∀ r ∈ evaluator p, r.isValid = true

/-- `p` is the priority to use: the first feasible one, or the last one when none is feasible. -/
inductive Use {R : Type} (evaluator : String → List (EvalResult R)) : List String → String → Prop
  | found (p : String) (ps : List String) (h : Feasible evaluator p) : Use evaluator (p :: ps) p
  | last (p : String) : Use evaluator [p] p
  | next (p q : String) (ps : List String) (h : ¬ Feasible evaluator p) (hq : Use evaluator ps q) :
      Use evaluator (p :: ps) q

/-! ## Lemmas -/

theorem foldl_and {R : Type} (rs : List (EvalResult R)) : ∀ b : Bool,
    rs.foldl (fun acc x => acc && x.isValid) b = true ↔ b = true ∧ ∀ r ∈ rs, r.isValid = true := by
  induction rs with
  | nil => intro b; simp
  | cons r rs ih =>
    intro b
    rw [List.foldl_cons, ih]
    simp [and_assoc]

theorem reduce_spec {R : Type} (rs : List (EvalResult R)) (h : rs ≠ []) :
    ∃ b, reduceValid rs = .ok b ∧ (b = true ↔ ∀ r ∈ rs, r.isValid = true) := by
  cases rs with
  | nil => exact absurd rfl h
  | cons r rs =>
    refine ⟨_, rfl, ?_⟩
    rw [foldl_and]
    simp

theorem inner_fold {R : Type} : ∀ (rs : List (EvalResult R)) (acc : List (String × R)),
    (acc.map (·.1) ++ rs.map (·.id)).Nodup →
    rs.foldl (fun d r => dictSet r.id r.result d) acc = acc ++ rs.map (fun r => (r.id, r.result)) := by
  intro rs
  induction rs with
  | nil => intro acc _; simp
  | cons r rs ih =>
    intro acc hnd
    have hfresh : r.id ∉ acc.map (·.1) := by
      intro hm
      rw [List.nodup_append] at hnd
      exact hnd.2.2 _ hm _ (by simp) rfl
    rw [List.foldl_cons, dictSet_fresh _ _ _ hfresh, ih _ (by simpa using hnd)]
    simp

theorem lookup_dictSet_ne {α β : Type} [DecidableEq α] (k q : α) (v : β) (l : List (α × β)) (h : q ≠ k) :
    (dictSet k v l).lookup q = l.lookup q := by
  induction l with
  | nil => simp [dictSet, List.lookup, beq_false_of_ne h]
  | cons a l ih =>
    unfold dictSet
    split
    · rename_i e
      simp only [List.lookup]
      rw [← e] at h
      simp [beq_false_of_ne h]
    · simp only [List.lookup]
      split
      · rfl
      · exact ih

theorem lookup_dictSet_self {α β : Type} [DecidableEq α] (k : α) (v : β) (l : List (α × β)) :
    (dictSet k v l).lookup k = some v := by
  induction l with
  | nil => simp [dictSet]
  | cons a l ih =>
    unfold dictSet
    split
    · rename_i e
      simp [List.lookup, e]
    · rename_i e
      have : k ≠ a.1 := fun h => e h.symm
      simp only [List.lookup, beq_false_of_ne this]
      exact ih

/-- The loop, for distinct priorities not seen before. -/
theorem loop_spec {R : Type} (evaluator : String → List (EvalResult R))
    (hne : ∀ p, evaluator p ≠ []) (hid : ∀ p, ((evaluator p).map (·.id)).Nodup) :
    ∀ (ps : List String) (acc : List (String × List (String × R))), ps.Nodup → (∀ p ∈ ps, acc.lookup p = none) →
    ∃ found acc', priorityLoop evaluator ps acc = .ok (found, acc') ∧
      (∀ p, p ∉ ps → acc'.lookup p = acc.lookup p) ∧
      (∀ p, found = some p → Use evaluator ps p ∧ Feasible evaluator p ∧
        acc'.lookup p = some ((evaluator p).map (fun r => (r.id, r.result)))) ∧
      (found = none → ∀ p ∈ ps, ¬ Feasible evaluator p ∧
        acc'.lookup p = some ((evaluator p).map (fun r => (r.id, r.result)))) := by
  intro ps
  induction ps with
  | nil => intro acc _ _; exact ⟨none, acc, rfl, fun _ _ => rfl, by simp, by simp⟩
  | cons p ps ih =>
    intro acc hnd hfresh
    obtain ⟨hp, hnd'⟩ := List.nodup_cons.mp hnd
    obtain ⟨b, hb, hbv⟩ := reduce_spec (evaluator p) (hne p)
    have hinner : (evaluator p).foldl (fun d r => dictSet r.id r.result d) ((acc.lookup p).getD []) =
        (evaluator p).map (fun r => (r.id, r.result)) := by
      rw [hfresh p (by simp), Option.getD_none, inner_fold _ _ (by simpa using hid p)]
      rfl
    rw [priorityLoop]
    simp only [Bind.bind, Except.bind, hb, hinner, Pure.pure, Except.pure]
    cases hbb : b with
    | true =>
      refine ⟨some p, _, rfl, ?_, ?_, by simp⟩
      · intro q hq
        rw [lookup_dictSet_ne]
        exact fun e => hq (by simp [e])
      · intro q hq
        cases hq
        have := hbv.mp hbb
        exact ⟨.found p ps this, this, lookup_dictSet_self _ _ _⟩
    | false =>
      have hnf : ¬ Feasible evaluator p := by
        intro h
        rw [hbv.mpr h] at hbb
        cases hbb
      obtain ⟨found, acc', h1, h2, h3, h4⟩ := ih (dictSet p ((evaluator p).map (fun r => (r.id, r.result))) acc) hnd' (by
        intro q hq
        rw [lookup_dictSet_ne _ _ _ _ (fun e => by subst e; exact hp hq)]
        exact hfresh q (List.mem_cons_of_mem _ hq))
      refine ⟨found, acc', h1, ?_, ?_, ?_⟩
      · intro q hq
        rw [List.mem_cons, not_or] at hq
        rw [h2 q hq.2, lookup_dictSet_ne _ _ _ _ hq.1]
      · intro q hq
        obtain ⟨a, b, c⟩ := h3 q hq
        exact ⟨.next p q ps hnf a, b, c⟩
      · intro hn q hq
        rcases List.mem_cons.mp hq with rfl | hq
        · exact ⟨hnf, by rw [h2 q hp, lookup_dictSet_self]⟩
        · exact h4 hn q hq

theorem use_last {R : Type} (evaluator : String → List (EvalResult R)) : ∀ (ps : List String) (last : String),
    ps.getLast? = some last → (∀ p ∈ ps, ¬ Feasible evaluator p) → Use evaluator ps last := by
  intro ps
  induction ps with
  | nil => intro last h; simp at h
  | cons p ps ih =>
    intro last h hn
    cases ps with
    | nil => simp at h; subst h; exact .last p
    | cons q qs =>
      exact .next p last _ (hn p (by simp)) (ih last (by simpa [List.getLast?_cons_cons] using h)
        (fun x hx => hn x (List.mem_cons_of_mem _ hx)))

/-- **Priority.** For distinct priorities and evaluations with distinct component ids: the priority used is the first
feasible one, else the last one, and the results are those of that priority, in its order. -/
theorem C26_first_feasible {R : Type} (priorities : List String) (evaluator : String → List (EvalResult R))
    (hp : priorities ≠ []) (hnd : priorities.Nodup) (hne : ∀ p, evaluator p ≠ [])
    (hid : ∀ p, ((evaluator p).map (·.id)).Nodup) :
    ∃ p, optimize priorities evaluator = .ok (p, (evaluator p).map (·.result)) ∧ Use evaluator priorities p := by
  obtain ⟨found, acc, h1, _, h3, h4⟩ := loop_spec evaluator hne hid priorities [] hnd (fun _ _ => rfl)
  have hl : priorities.getLast? = some (priorities.getLast hp) := List.getLast?_eq_some_getLast hp
  unfold optimize
  rw [hl]
  simp only [Bind.bind, Except.bind, h1, Pure.pure, Except.pure]
  cases hf : found with
  | some p =>
    obtain ⟨a, _, c⟩ := h3 p hf
    refine ⟨p, ?_, a⟩
    simp [c, Function.comp_def]
  | none =>
    have hm : priorities.getLast hp ∈ priorities := List.getLast_mem hp
    refine ⟨priorities.getLast hp, ?_, use_last evaluator priorities _ hl (fun p hpm => (h4 hf p hpm).1)⟩
    simp [(h4 hf _ hm).2, Function.comp_def]

/-- The choice is determined for distinct priorities. -/
theorem C26_unique {R : Type} (evaluator : String → List (EvalResult R)) : ∀ (ps : List String) (p q : String),
    Use evaluator ps p → Use evaluator ps q → p = q := by
  intro ps
  induction ps with
  | nil => intro p q h; cases h
  | cons a ps ih =>
    intro p q h1 h2
    cases h1 with
    | found _ _ h =>
      cases h2 with
      | found => rfl
      | last => rfl
      | next _ _ _ h' => exact absurd h h'
    | last =>
      cases h2 with
      | found => rfl
      | last => rfl
      | next _ _ _ _ h' => cases h'
    | next _ _ _ h hq =>
      cases h2 with
      | found _ _ h' => exact absurd h' h
      | last => cases hq
      | next _ _ _ _ hq' => exact ih p q hq hq'

/-- Priorities after the one used are not evaluated: changing what they evaluate to changes nothing. -/
theorem C26_later_not_needed {R : Type} (before after : List String) (p : String)
    (e e' : String → List (EvalResult R)) (hnd : (before ++ p :: after).Nodup)
    (hne : ∀ p, e p ≠ []) (hid : ∀ p, ((e p).map (·.id)).Nodup)
    (hne' : ∀ p, e' p ≠ []) (hid' : ∀ p, ((e' p).map (·.id)).Nodup)
    (hb : ∀ q ∈ before, ¬ Feasible e q) (hf : Feasible e p) (hsame : ∀ q, q ∉ after → e' q = e q) :
    optimize (before ++ p :: after) e' = optimize (before ++ p :: after) e := by
  have hpa : p ∉ after := by
    have := (List.nodup_append.mp hnd).2.1
    exact (List.nodup_cons.mp this).1
  have hba : ∀ q ∈ before, q ∉ after := fun q hq ha =>
    (List.nodup_append.mp hnd).2.2 q hq q (List.mem_cons_of_mem _ ha) rfl
  have use : ∀ (f : String → List (EvalResult R)) (bs : List String), (∀ q ∈ bs, ¬ Feasible f q) → Feasible f p →
      Use f (bs ++ p :: after) p := by
    intro f bs
    induction bs with
    | nil => intro _ h; exact .found p after h
    | cons b bs ih =>
      intro h1 h2
      exact .next b p _ (h1 b (by simp)) (ih (fun q hq => h1 q (List.mem_cons_of_mem _ hq)) h2)
  have f1 : Feasible e' p := by unfold Feasible; rw [hsame p hpa]; exact hf
  have f2 : ∀ q ∈ before, ¬ Feasible e' q := by
    intro q hq
    unfold Feasible
    rw [hsame q (hba q hq)]
    exact hb q hq
  obtain ⟨a, h1, u1⟩ := C26_first_feasible (before ++ p :: after) e (by simp) hnd hne hid
  obtain ⟨b, h2, u2⟩ := C26_first_feasible (before ++ p :: after) e' (by simp) hnd hne' hid'
  have ea := C26_unique e _ _ _ u1 (use e before hb hf)
  have eb := C26_unique e' _ _ _ u2 (use e' before f2 f1)
  subst ea
  rw [eb] at h2
  rw [h1, h2, hsame a hpa]

/-- Edge cases: no priorities is an IndexError; a first priority whose evaluation has no results is a TypeError. -/
theorem C26_empty {R : Type} (evaluator : String → List (EvalResult R)) (p : String) (ps : List String)
    (h : evaluator p = []) :
    optimize [] evaluator = .error .indexError ∧ optimize (p :: ps) evaluator = .error .typeError := by
  refine ⟨rfl, ?_⟩
  unfold optimize
  rw [List.getLast?_eq_some_getLast (List.cons_ne_nil p ps)]
  simp only [Bind.bind, Except.bind]
  rw [priorityLoop]
  simp [h, reduceValid, Bind.bind, Except.bind]

/-! ## Example -/

/-- Two components; "low" fails for one of them, "mid" is feasible. -/
def sample (p : String) : List (EvalResult Nat) :=
  if p = "low" then [⟨"a", 1, true⟩, ⟨"b", 2, false⟩]
  else if p = "mid" then [⟨"a", 3, true⟩, ⟨"b", 4, true⟩] else [⟨"a", 5, true⟩, ⟨"b", 6, true⟩]

example : optimize ["low", "mid", "high"] sample = .ok ("mid", [3, 4]) := by decide

example : ∀ p, sample p ≠ [] ∧ ((sample p).map (·.id)).Nodup := by
  intro p; unfold sample; split <;> [skip; split] <;> simp

end Verif.C26
