import Verif.Model.Inputs
import Verif.Props.C20

/-!
# C22: conditions and masks switch consumption off exactly where they are false
-/

namespace Verif.C22
open Verif.Time Verif.Rates Verif.Expression Verif.Variables Verif.Inputs Verif.C19 Verif.C20

/-! ## Specification -/

/-- A condition holds where its value is not zero. -/
def Holds (c : Fl) : Prop := c ≠ some 0

/-- A written condition: grammatical (see C18), and its names available in all periods. -/
def GoodText (ev : VarMap) (ts : List Token) (t : Tree) : Prop :=
  C18.Written 0 t ts ∧ Available ev.vars ev.periods.length ts

/-! ## Helper lemmas -/

theorem written_supported {n : Nat} {t : Tree} {ts : List Token} (h : C18.Written n t ts) : Supported ts := by
  induction h with
  | number => intro s; simp
  | name => intro s; simp
  | paren n t ts _ ih => intro s; simp; exact ih s
  | left n o l r ls rs _ _ _ _ ih1 ih2 => intro s; simp; exact ⟨ih1 s, ih2 s⟩
  | right n o l r ls rs _ _ _ _ ih1 ih2 => intro s; simp; exact ⟨ih1 s, ih2 s⟩

/-- The tree of the conjunction of several conditions. -/
def conj : Tree → List Tree → Tree
  | t, [] => t
  | t, u :: us => conj (.node (.op .mul) t u) us

theorem join_cons (c : List Token) (cs : List (List Token)) :
    joinConditions (c :: cs) = c ++ (cs.map (fun x => [Token.op .mul] ++ x)).flatten := by
  induction cs generalizing c with
  | nil => simp [joinConditions]
  | cons d ds ih =>
    rw [joinConditions]
    · rw [ih]; simp
    · simp

theorem written_conj (cs : List (List Token × Tree)) (h : ∀ c ∈ cs, C18.Written 0 c.2 c.1) :
    ∀ (t : Tree) (ts : List Token), C18.Written 8 t ts →
      C18.Written 8 (conj t (cs.map (·.2)))
        (ts ++ ((cs.map (fun c => [Token.lpar] ++ c.1 ++ [.rpar])).map (fun x => [Token.op .mul] ++ x)).flatten) := by
  induction cs with
  | nil => intro t ts ht; simpa [conj] using ht
  | cons c cs ih =>
    intro t ts ht
    have h1 := C18.Written.left 8 .mul t c.2 ts ([Token.lpar] ++ c.1 ++ [.rpar]) (by decide) (by decide) ht
      (C18.Written.paren _ _ _ (h c (by simp)))
    have := ih (fun d hd => h d (by simp [hd])) _ _ h1
    simpa [conj] using this

theorem written_weaken {n m : Nat} {t : Tree} {ts : List Token} (h : C18.Written n t ts) (hm : m ≤ n) :
    C18.Written m t ts := by
  cases h with
  | number => exact .number _ _
  | name => exact .name _ _
  | paren _ _ _ h => exact .paren _ _ _ h
  | left _ o l r ls rs a b c d => exact .left _ o l r ls rs a (by omega) c d
  | right _ o l r ls rs a b c d => exact .right _ o l r ls rs a (by omega) c d

theorem conj_means (pow : Fl → Fl → Fl) (val : String → Fl) (ts : List Tree) :
    ∀ (t : Tree) (x : ℚ) (ys : List ℚ), Means pow val t (some x) →
      List.Forall₂ (fun u y => Means pow val u (some y)) ts ys →
      Means pow val (conj t ts) (some (ys.foldl (· * ·) x)) := by
  induction ts with
  | nil => intro t x ys h1 h2; cases h2; simpa [conj] using h1
  | cons u us ih =>
    intro t x ys h1 h2
    cases h2 with
    | cons hu hus =>
      rename_i y ys
      exact ih _ (x * y) ys (.op .mul t u _ _ _ h1 hu (.mul _ _)) hus

theorem foldl_mul_ne_zero (ys : List ℚ) : ∀ x : ℚ, ys.foldl (· * ·) x ≠ 0 ↔ x ≠ 0 ∧ ∀ y ∈ ys, y ≠ 0 := by
  induction ys with
  | nil => simp
  | cons y ys ih =>
    intro x
    rw [List.foldl_cons, ih, mul_ne_zero_iff]
    simp only [List.mem_cons, forall_eq_or_imp, and_assoc]

theorem list_tokens (cs : List (ExprInput × List Token × Tree))
    (hcs : ∀ c ∈ cs, c.1 = .text c.2.1 ∨ ∃ v : ℚ, 0 ≤ v ∧ c.1 = .number v ∧ c.2.1 = [.num v]) :
    (cs.map (·.1)).mapM condTokens = .ok (cs.map (fun c => [Token.lpar] ++ c.2.1 ++ [.rpar])) := by
  induction cs with
  | nil => rfl
  | cons c cs ih =>
    rw [List.map_cons, List.mapM_cons, ih (fun d hd => hcs d (by simp [hd]))]
    have : condTokens c.1 = .ok ([Token.lpar] ++ c.2.1 ++ [.rpar]) := by
      rcases hcs c (by simp) with h | ⟨v, h0, h1, h2⟩
      · rw [h]; rfl
      · rw [h1, h2]
        simp only [condTokens]
        rw [if_neg (by exact not_lt.mpr h0)]
        rfl
    rw [this]; rfl

/-! ## Property -/

/-- The masked values equal the unmasked ones where the condition holds and are zero elsewhere. -/
theorem C22_masked (pow : Fl → Fl → Fl) (t : TSE) (c : Expr) (hc : t.condition = some c)
    (hu : Usable t.evaluator.vars t.evaluator.periods.length t.expr)
    (huc : Usable t.evaluator.vars t.evaluator.periods.length c) :
    ∃ vs raw, t.masked pow = .ok vs ∧ t.evaluated pow = .ok raw ∧
      vs.length = t.evaluator.periods.length ∧ raw.length = t.evaluator.periods.length ∧
      ∀ (k : Nat) (hk : k < vs.length) (hk' : k < raw.length) (x : Fl),
        Means pow (valueIn t.evaluator.vars k) c.tree x →
        (Holds x → vs[k] = raw[k]) ∧ (¬ Holds x → vs[k] = some 0) := by
  obtain ⟨raw, r1, r2, -⟩ := C19_value_per_period pow t.expr.tokens t.expr _ _ hu.1 hu.2.1 hu.2.2
  obtain ⟨ms, m1, m2, m3⟩ := C19_value_per_period pow c.tokens c _ _ huc.1 huc.2.1 huc.2.2
  refine ⟨List.zipWith (fun c x => if c ≠ some 0 then x else some 0) ms raw, raw, ?_, r1, by simp [r2, m2], r2, ?_⟩
  · unfold TSE.masked TSE.evaluated VarMap.evaluate
    simp only [r1, hc, m1, Bind.bind, Except.bind, maskApply]
    exact npOp_same _ _ _ (by omega)
  · intro k hk hk' x hx
    have hm := m3 k (by omega)
    have hx' := C19_meaning_unique pow _ _ _ _ hm hx
    rw [List.getElem_zipWith, hx']
    unfold Holds
    constructor
    · intro h; rw [if_pos h]
    · intro h; rw [if_neg h]

/-- Without a condition nothing is masked. -/
theorem C22_unconditioned (pow : Fl → Fl → Fl) (t : TSE) (hc : t.condition = none) :
    t.masked pow = t.evaluated pow := by
  unfold TSE.masked
  rw [hc]
  cases t.evaluated pow <;> rfl

/-- A list of conditions acts as their conjunction: it is mapped to one usable condition, which holds in a period
exactly when every condition of the list does. Holds for both ways of mapping the list. -/
theorem C22_conditions_are_and (pow : Fl → Fl → Fl) (ev : VarMap) (c : ExprInput × List Token × Tree)
    (cs : List (ExprInput × List Token × Tree))
    (hcs : ∀ d ∈ c :: cs, d.1 = .text d.2.1 ∨ ∃ v : ℚ, 0 ≤ v ∧ d.1 = .number v ∧ d.2.1 = [.num v])
    (hg : ∀ d ∈ c :: cs, GoodText ev d.2.1 d.2.2) :
    ∃ i e, mapCondition none (some ((c :: cs).map (·.1))) = .ok (some i) ∧
      mapConditions none (some ((c :: cs).map (·.1))) = .ok (some i) ∧
      i.setup = .ok e ∧ Usable ev.vars ev.periods.length e ∧
      ∀ (k : Nat) (x : ℚ) (xs : List ℚ),
        List.Forall₂ (fun d y => Means pow (valueIn ev.vars k) d.2.2 (some y)) (c :: cs) (x :: xs) →
        ∃ y, Means pow (valueIn ev.vars k) e.tree (some y) ∧
          (Holds (some y) ↔ ∀ z ∈ x :: xs, Holds (some z)) := by
  have hl := list_tokens (c :: cs) hcs
  have hw : C18.Written 0 (conj c.2.2 (cs.map (·.2.2)))
      (joinConditions ((c :: cs).map (fun c => [Token.lpar] ++ c.2.1 ++ [.rpar]))) := by
    rw [List.map_cons, join_cons]
    have := written_conj (cs.map (·.2)) (by
      intro d hd
      obtain ⟨d', hd', rfl⟩ := List.mem_map.mp hd
      exact (hg d' (by simp [hd'])).1) c.2.2 ([Token.lpar] ++ c.2.1 ++ [.rpar])
      (C18.Written.paren _ _ _ (hg c (by simp)).1)
    have := written_weaken this (Nat.zero_le 8)
    simpa [List.map_map, Function.comp_def] using this
  refine ⟨.text (joinConditions ((c :: cs).map (fun c => [Token.lpar] ++ c.2.1 ++ [.rpar]))),
    ⟨_, conj c.2.2 (cs.map (·.2.2))⟩, ?_, ?_, C18.make_written hw, ⟨C18.make_written hw, written_supported hw, ?_⟩, ?_⟩
  · show (handleConditionList ((c :: cs).map (·.1))).map some = _
    unfold handleConditionList
    rw [hl]; rfl
  · show (handleConditionList ((c :: cs).map (·.1))).map some = _
    unfold handleConditionList
    rw [hl]; rfl
  · intro s hs
    simp only [List.map_cons] at hs
    rw [join_cons] at hs
    have : ∃ d ∈ c :: cs, Token.ref s ∈ d.2.1 := by
      rcases List.mem_append.mp hs with hs | hs
      · exact ⟨c, by simp, by simpa using hs⟩
      · obtain ⟨l, hl, hs⟩ := List.mem_flatten.mp hs
        obtain ⟨l', hl', rfl⟩ := List.mem_map.mp hl
        obtain ⟨d, hd, rfl⟩ := List.mem_map.mp hl'
        exact ⟨d, by simp [hd], by simpa using hs⟩
    obtain ⟨d, hd, hs⟩ := this
    exact (hg d hd).2 s hs
  · intro k x xs hf
    cases hf with
    | cons h1 h2 =>
      refine ⟨xs.foldl (· * ·) x, conj_means pow _ _ _ x xs h1 ?_, ?_⟩
      · rw [List.forall₂_map_left_iff]; exact h2
      · unfold Holds
        have := foldl_mul_ne_zero xs x
        simp only [ne_eq, Option.some.injEq, List.mem_cons, forall_eq_or_imp] at this ⊢
        exact this

/-- Finding: for energy usage models a condition given as the number 0 is dropped, so that the consumer runs in all
periods although the condition never holds. Inlet streams keep it. -/
theorem C22_zero_condition_dropped :
    mapCondition (some (.number 0)) none = .ok none ∧
    mapConditions (some (.number 0)) none = .ok (some (.number 0)) := ⟨by rfl, by rfl⟩

/-- Finding: venting emitters ignore a list of conditions, whatever the conditions. -/
theorem C22_venting_ignores_conditions (cs : List ExprInput) :
    ventingCondition none (some cs) = .ok none := rfl

/-- Any other single condition is passed on unchanged, in all three mappings. -/
theorem C22_single_condition (c : ExprInput) (h0 : c ≠ .number 0) (hne : c ≠ .text []) :
    mapCondition (some c) none = .ok (some c) ∧ mapConditions (some c) none = .ok (some c) ∧
    ventingCondition (some c) none = .ok (some c) := by
  refine ⟨?_, rfl, rfl⟩
  have htr : c.truthy = true := by
    cases c with
    | number v => simp [ExprInput.truthy] at h0 ⊢; exact h0
    | text ts => simp [ExprInput.truthy] at hne ⊢; exact hne
  simp only [mapCondition, htr, if_true]

/-- Finding: a missing value (NaN) counts as holding when it is the only condition, and as not holding when it is
one of several: two conditions that are both NaN switch the consumer off. -/
theorem C22_nan_condition (pow : Fl → Fl → Fl) (val : String → Fl) (s : String) (h : val s = none) :
    Means pow val (.leaf (.ref s)) none ∧ Holds none ∧
    Means pow val (conj (.leaf (.ref s)) [.leaf (.ref s)]) (some 0) ∧ ¬ Holds (some 0) := by
  refine ⟨by rw [← h]; exact .name s, by simp [Holds], ?_, by simp [Holds]⟩
  exact .op .mul _ _ _ _ 0 (.name s) (.name s) (.nan .mul _ _ (by decide) (by decide) (.inl h))

/-! ## Non-vacuity -/

/-- The series `x` is 1, NaN, 3 in the sample map; the condition `x > 2`. -/
def cond : Expr := ⟨[.ref "x", .op .gt, .num 2], .node (.op .gt) (.leaf (.ref "x")) (.leaf (.num 2))⟩

example : (TSE.mk exprB sampleMap (some cond)).masked (fun _ _ => none) = .ok [some 0, some 0, some 5] := by
  decide +kernel

example : Usable sampleMap.vars 3 cond :=
  ⟨by decide +kernel, by intro s; simp [cond], by
    intro s hs; simp [cond] at hs; subst hs; exact ⟨_, rfl, rfl⟩⟩

example : GoodText sampleMap cond.tokens cond.tree :=
  ⟨.left 0 .gt _ _ [.ref "x"] [.num 2] (by decide) (by decide) (.name _ _) (.number _ _), by
    intro s hs; simp [cond] at hs; subst hs; exact ⟨_, rfl, rfl⟩⟩

end Verif.C22
