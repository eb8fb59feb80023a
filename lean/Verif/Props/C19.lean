import Verif.Model.Variables
import Verif.Props.C13
import Verif.Props.C01
import Verif.Props.C15
import Verif.Props.C18
import Mathlib.Tactic.Linarith

/-!
# C19: evaluating an expression is period-wise
-/

namespace Verif.C19
open Verif.Time Verif.Rates Verif.Expression Verif.Variables

/-! ## Specification: the value of an expression in one period -/

/-- Meaning of an operator on two numbers (`none` is NaN). Comparisons give one or zero, an undefined result counts
as zero, dividing a non-zero number by zero gives the largest number with the sign of the dividend. -/
inductive OpMeans (pow : Fl → Fl → Fl) : Op → Fl → Fl → ℚ → Prop
  | add (a b : ℚ) : OpMeans pow .add (some a) (some b) (a + b)
  | sub (a b : ℚ) : OpMeans pow .sub (some a) (some b) (a - b)
  | mul (a b : ℚ) : OpMeans pow .mul (some a) (some b) (a * b)
  | div (a b : ℚ) : b ≠ 0 → OpMeans pow .div (some a) (some b) (a / b)
  | divZero : OpMeans pow .div (some 0) (some 0) 0
  | divPos (a : ℚ) : 0 < a → OpMeans pow .div (some a) (some 0) (2 ^ 1024 - 2 ^ 971)
  | divNeg (a : ℚ) : a < 0 → OpMeans pow .div (some a) (some 0) (-(2 ^ 1024 - 2 ^ 971))
  | powDef (a b : Fl) (r : ℚ) : pow a b = some r → OpMeans pow .pow a b r
  | powUndef (a b : Fl) : pow a b = none → OpMeans pow .pow a b 0
  | eqTrue (a : ℚ) : OpMeans pow .eq (some a) (some a) 1
  | eqFalse (a b : ℚ) : a ≠ b → OpMeans pow .eq (some a) (some b) 0
  | neFalse (a : ℚ) : OpMeans pow .ne (some a) (some a) 0
  | neTrue (a b : ℚ) : a ≠ b → OpMeans pow .ne (some a) (some b) 1
  | ltTrue (a b : ℚ) : a < b → OpMeans pow .lt (some a) (some b) 1
  | ltFalse (a b : ℚ) : b ≤ a → OpMeans pow .lt (some a) (some b) 0
  | gtTrue (a b : ℚ) : b < a → OpMeans pow .gt (some a) (some b) 1
  | gtFalse (a b : ℚ) : a ≤ b → OpMeans pow .gt (some a) (some b) 0
  | leTrue (a b : ℚ) : a ≤ b → OpMeans pow .le (some a) (some b) 1
  | leFalse (a b : ℚ) : b < a → OpMeans pow .le (some a) (some b) 0
  | geTrue (a b : ℚ) : b ≤ a → OpMeans pow .ge (some a) (some b) 1
  | geFalse (a b : ℚ) : a < b → OpMeans pow .ge (some a) (some b) 0
  | nanNe (a b : Fl) : a = none ∨ b = none → OpMeans pow .ne a b 1
  | nan (o : Op) (a b : Fl) : o ≠ .pow → o ≠ .ne → a = none ∨ b = none → OpMeans pow o a b 0

/-- `Means pow val t x`: the tree `t` has the value `x` when the names have the values `val`. -/
inductive Means (pow : Fl → Fl → Fl) (val : String → Fl) : Tree → Fl → Prop
  | number (v : ℚ) : Means pow val (.leaf (.num v)) (some v)
  | name (s : String) : Means pow val (.leaf (.ref s)) (val s)
  | op (o : Op) (l r : Tree) (a b : Fl) (x : ℚ) : Means pow val l a → Means pow val r b → OpMeans pow o a b x →
      Means pow val (.node (.op o) l r) (some x)

/-- Only supported operators are used. -/
def Supported (ts : List Token) : Prop := ∀ s, .other s ∉ ts

/-- Every name the expression uses has one value per period. -/
def Available (vars : Vars) (n : Nat) (ts : List Token) : Prop :=
  ∀ s, .ref s ∈ ts → ∃ vs, vars.lookup s = some vs ∧ vs.length = n

/-- The value of a name in period `i`. -/
def valueIn (vars : Vars) (i : Nat) (s : String) : Fl := (((vars.lookup s).getD [])[i]?).getD none

/-! ## Helper lemmas -/

theorem opMeans_opValue (pow : Fl → Fl → Fl) (o : Op) (a b : Fl) : OpMeans pow o a b (opValue pow o a b) := by
  have hp : ∀ a b, OpMeans pow .pow a b ((pow a b).getD 0) := by
    intro a b
    cases h : pow a b with
    | none => exact .powUndef _ _ h
    | some r => exact .powDef _ _ _ h
  cases a with
  | none =>
    cases o
    case pow => exact hp none b
    case ne => exact .nanNe _ _ (.inl rfl)
    all_goals exact .nan _ _ _ (by simp) (by simp) (.inl rfl)
  | some a =>
    cases b with
    | none =>
      cases o
      case pow => exact hp (some a) none
      case ne => exact .nanNe _ _ (.inr rfl)
      all_goals exact .nan _ _ _ (by simp) (by simp) (.inr rfl)
    | some b =>
      cases o
      case pow => exact hp (some a) (some b)
      case add => exact .add a b
      case sub => exact .sub a b
      case mul => exact .mul a b
      case div =>
        simp only [opValue]
        split
        · rename_i hb; subst hb
          split
          · rename_i ha; subst ha; exact .divZero
          · split
            · exact .divPos a (by assumption)
            · exact .divNeg a (by rename_i h1 h2; exact lt_of_le_of_ne (not_lt.mp h2) h1)
        · exact .div a b (by assumption)
      all_goals
        simp only [opValue, boolNum]
        by_cases h : a = b
        · subst h
          simp
          constructor
          try simp
        · rcases lt_or_gt_of_ne h with h' | h' <;>
            simp [h, h', h'.le, h'.not_gt, not_le.mpr h']
          all_goals first
            | exact .eqFalse _ _ h | exact .neTrue _ _ h | exact .ltTrue _ _ h' | exact .ltFalse _ _ h'.le
            | exact .gtTrue _ _ h' | exact .gtFalse _ _ h'.le | exact .leTrue _ _ h'.le | exact .leFalse _ _ h'
            | exact .geTrue _ _ h'.le | exact .geFalse _ _ h'

theorem opMeans_unique (pow : Fl → Fl → Fl) (o : Op) (a b : Fl) (x y : ℚ) (h1 : OpMeans pow o a b x)
    (h2 : OpMeans pow o a b y) : x = y := by
  cases h1 <;> cases h2 <;> first | rfl | (exfalso; linarith) | simp_all

theorem means_unique (pow : Fl → Fl → Fl) (val : String → Fl) (t : Tree) :
    ∀ x y, Means pow val t x → Means pow val t y → x = y := by
  induction t with
  | leaf a => intro x y h1 h2; cases h1 <;> cases h2 <;> rfl
  | node a l r ihl ihr =>
    intro x y h1 h2
    cases h1 with
    | op o _ _ a b x hl hr ho =>
      cases h2 with
      | op _ _ _ a' b' x' hl' hr' ho' =>
        rw [ihl _ _ hl hl', ihr _ _ hr hr'] at ho
        rw [opMeans_unique _ _ _ _ _ _ ho ho']

/-- The tokens of a tree satisfy `A`; leaves are operands, inner nodes operators. -/
def TreeOver (A : Token → Prop) : Tree → Prop
  | .leaf t => A t ∧ t.isOperator = false
  | .node t l r => A t ∧ t.isOperator = true ∧ TreeOver A l ∧ TreeOver A r

theorem popOps_mem (A : Token → Prop) (t : Token) (S out S' out' : List Token)
    (h : popOps t S out = .ok (S', out')) (h1 : ∀ x ∈ S, A x) (h2 : ∀ x ∈ out, A x) :
    (∀ x ∈ S', A x) ∧ ∀ x ∈ out', A x := by
  induction S generalizing out with
  | nil => simp only [popOps, Except.ok.injEq, Prod.mk.injEq] at h; obtain ⟨rfl, rfl⟩ := h; exact ⟨h1, h2⟩
  | cons a S ih =>
    by_cases ha : a = .lpar
    · subst ha
      simp only [popOps, Except.ok.injEq, Prod.mk.injEq] at h; obtain ⟨rfl, rfl⟩ := h; exact ⟨h1, h2⟩
    · have e : popOps t (a :: S) out = (do
          let p2 ← getOperator a
          let p1 ← getOperator t
          if p2.prec > p1.prec ∨ (p1.prec = p2.prec ∧ p1.isLeft = true) then popOps t S (out ++ [a])
          else return (a :: S, out)) := by
        rw [popOps]; exact ha
      rw [e] at h
      simp only [Bind.bind, Except.bind, Pure.pure, Except.pure] at h
      split at h; · simp at h
      split at h; · simp at h
      split at h
      · refine ih _ h (fun x hx => h1 x (by simp [hx])) ?_
        intro x hx
        rcases List.mem_append.mp hx with hx | hx
        · exact h2 x hx
        · simp at hx; subst hx; exact h1 x (by simp)
      · simp only [Except.ok.injEq, Prod.mk.injEq] at h; obtain ⟨rfl, rfl⟩ := h; exact ⟨h1, h2⟩

theorem popParen_mem (A : Token → Prop) (S out S' out' : List Token)
    (h : popParen S out = .ok (S', out')) (h1 : ∀ x ∈ S, A x) (h2 : ∀ x ∈ out, A x) :
    (∀ x ∈ S', A x) ∧ ∀ x ∈ out', A x := by
  induction S generalizing out with
  | nil => simp [popParen] at h
  | cons a S ih =>
    by_cases ha : a = .lpar
    · subst ha
      simp only [popParen, Except.ok.injEq, Prod.mk.injEq] at h; obtain ⟨rfl, rfl⟩ := h
      exact ⟨fun x hx => h1 x (by simp [hx]), h2⟩
    · have e : popParen (a :: S) out = popParen S (out ++ [a]) := by rw [popParen]; exact ha
      rw [e] at h
      refine ih _ h (fun x hx => h1 x (by simp [hx])) ?_
      intro x hx
      rcases List.mem_append.mp hx with hx | hx
      · exact h2 x hx
      · simp at hx; subst hx; exact h1 x (by simp)

theorem popRest_mem (A : Token → Prop) (S out p : List Token)
    (h : popRest S out = .ok p) (h1 : ∀ x ∈ S, A x) (h2 : ∀ x ∈ out, A x) : ∀ x ∈ p, A x := by
  induction S generalizing out with
  | nil => simp only [popRest, Except.ok.injEq] at h; subst h; exact h2
  | cons a S ih =>
    by_cases ha : a = .lpar
    · subst ha; simp [popRest] at h
    · have e : popRest (a :: S) out = popRest S (out ++ [a]) := by rw [popRest]; exact ha
      rw [e] at h
      refine ih _ h (fun x hx => h1 x (by simp [hx])) ?_
      intro x hx
      rcases List.mem_append.mp hx with hx | hx
      · exact h2 x hx
      · simp at hx; subst hx; exact h1 x (by simp)

theorem step_mem (A : Token → Prop) (s s' : List Token × List Token) (t : Token) (h : postfixStep s t = .ok s')
    (ht : A t) (h1 : ∀ x ∈ s.1, A x) (h2 : ∀ x ∈ s.2, A x) : (∀ x ∈ s'.1, A x) ∧ ∀ x ∈ s'.2, A x := by
  obtain ⟨S, out⟩ := s
  obtain ⟨S', out'⟩ := s'
  have hop : (do
          let (st, out) ← popOps t S out
          return (t :: st, out)) = Except.ok (ε := Err) (S', out') → (∀ x ∈ S', A x) ∧ ∀ x ∈ out', A x := by
    intro h
    simp only [Bind.bind, Except.bind, Pure.pure, Except.pure] at h
    split at h; · simp at h
    rename_i r hr'
    obtain ⟨S1, out1⟩ := r
    simp only [Except.ok.injEq, Prod.mk.injEq] at h
    obtain ⟨rfl, rfl⟩ := h
    obtain ⟨a, b⟩ := popOps_mem A _ _ _ _ _ hr' h1 h2
    exact ⟨by simpa using ⟨ht, a⟩, b⟩
  have hap : ∀ x ∈ out ++ [t], A x := by
    intro x hx
    rcases List.mem_append.mp hx with hx | hx
    · exact h2 x hx
    · simp at hx; subst hx; exact ht
  cases t with
  | num v =>
    simp only [postfixStep, Except.ok.injEq, Prod.mk.injEq] at h
    obtain ⟨rfl, rfl⟩ := h
    exact ⟨h1, hap⟩
  | ref v =>
    simp only [postfixStep, Except.ok.injEq, Prod.mk.injEq] at h
    obtain ⟨rfl, rfl⟩ := h
    exact ⟨h1, hap⟩
  | lpar =>
    simp only [postfixStep, Except.ok.injEq, Prod.mk.injEq] at h
    obtain ⟨rfl, rfl⟩ := h
    exact ⟨by simpa using ⟨ht, h1⟩, h2⟩
  | rpar => exact popParen_mem A _ _ _ _ h h1 h2
  | op o => exact hop h
  | other o => exact hop h

theorem loop_mem (A : Token → Prop) (ts : List Token) : ∀ s s', postfixLoop s ts = .ok s' → (∀ x ∈ ts, A x) →
    (∀ x ∈ s.1, A x) → (∀ x ∈ s.2, A x) → (∀ x ∈ s'.1, A x) ∧ ∀ x ∈ s'.2, A x := by
  induction ts with
  | nil => intro s s' h _ h1 h2; simp only [postfixLoop, Except.ok.injEq] at h; subst h; exact ⟨h1, h2⟩
  | cons t ts ih =>
    intro s s' h ht h1 h2
    simp only [postfixLoop, Bind.bind, Except.bind] at h
    split at h; · simp at h
    rename_i s1 hs1
    obtain ⟨a, b⟩ := step_mem A _ _ _ hs1 (ht t (by simp)) h1 h2
    exact ih _ _ h (fun x hx => ht x (by simp [hx])) a b

theorem postfix_mem (ts p : List Token) (h : getPostfix ts = .ok p) : ∀ x ∈ p, x ∈ ts ∧ x ≠ .lpar ∧ x ≠ .rpar := by
  unfold getPostfix at h
  simp only [Bind.bind, Except.bind] at h
  split at h; · simp at h
  rename_i s hs
  obtain ⟨a, b⟩ := loop_mem (· ∈ ts) ts _ _ hs (fun x hx => hx) (by simp) (by simp)
  have hm := popRest_mem (· ∈ ts) _ _ _ h a b
  obtain ⟨x, y, z⟩ := (C18.loop_count _ _ _ hs).2 (by simp) (by simp) (by simp)
  obtain ⟨h5, h6⟩ := (C18.popRest_count _ _ _ h).2 x y z
  exact fun t ht => ⟨hm t ht, fun he => h6 (he ▸ ht), fun he => h5 (he ▸ ht)⟩

theorem treeLoop_over (A : Token → Prop) (ts : List Token) : ∀ st st', treeLoop st ts = .ok st' → (∀ x ∈ ts, A x) →
    (∀ t ∈ st, TreeOver A t) → ∀ t ∈ st', TreeOver A t := by
  induction ts with
  | nil => intro st st' h _ h1; simp only [treeLoop, Except.ok.injEq] at h; subst h; exact h1
  | cons a ts ih =>
    intro st st' h ht h1
    unfold treeLoop at h
    have hts : ∀ x ∈ ts, A x := fun x hx => ht x (by simp [hx])
    split at h
    · rename_i hop
      split at h
      · rename_i r l st0
        refine ih _ _ h hts ?_
        intro t htm
        rcases List.mem_cons.mp htm with rfl | htm
        · exact ⟨ht a (by simp), hop, h1 l (by simp), h1 r (by simp)⟩
        · exact h1 t (by simp [htm])
      · simp at h
    · rename_i hop
      refine ih _ _ h hts ?_
      intro t htm
      rcases List.mem_cons.mp htm with rfl | htm
      · exact ⟨ht a (by simp), by simpa using hop⟩
      · exact h1 t htm

theorem make_over (ts : List Token) (e : Expr) (h : Expr.make ts = .ok e) :
    e.tokens = ts ∧ TreeOver (fun x => x ∈ ts ∧ x ≠ .lpar ∧ x ≠ .rpar) e.tree := by
  unfold Expr.make at h
  simp only [Bind.bind, Except.bind, Pure.pure, Except.pure] at h
  split at h; · simp at h
  rename_i p hp
  split at h; · simp at h
  rename_i t ht
  simp only [Except.ok.injEq] at h
  subst h
  refine ⟨rfl, ?_⟩
  unfold getTree at ht
  simp only [Bind.bind, Except.bind, Pure.pure, Except.pure] at ht
  split at ht; · simp at ht
  rename_i st hst
  split at ht
  · simp at ht
  · simp only [Except.ok.injEq] at ht
    subst ht
    exact treeLoop_over _ p [] _ hst (postfix_mem ts p hp) (by simp) _ (by simp)

theorem refs_mem (ts : List Token) (s : String) : s ∈ refs ts ↔ .ref s ∈ ts := by
  induction ts with
  | nil => simp [refs]
  | cons a ts ih => cases a <;> simp [refs, ih]

theorem npOp_same (f : Fl → Fl → Fl) (xs ys : List Fl) (h : xs.length = ys.length) :
    npOp f xs ys = .ok (List.zipWith f xs ys) := by simp [npOp, h]

theorem tree_value (pow : Fl → Fl → Fl) (vars : Vars) (n : Nat) (ts : List Token) (hs : Supported ts)
    (ha : Available vars n ts) (t : Tree) (ht : TreeOver (fun x => x ∈ ts ∧ x ≠ .lpar ∧ x ≠ .rpar) t) :
    ∃ vs, t.evaluate pow vars n = .ok vs ∧ vs.length = n ∧
      ∀ (i : Nat) (hi : i < vs.length), Means pow (valueIn vars i) t vs[i] := by
  induction t with
  | leaf a =>
    cases a with
    | num v => exact ⟨_, rfl, by simp, fun i hi => by simpa using .number v⟩
    | ref s =>
      obtain ⟨vs, h1, h2⟩ := ha s ht.1.1
      refine ⟨vs, by simp [Tree.evaluate, h1], h2, fun i hi => ?_⟩
      have : vs[i] = valueIn vars i s := by simp [valueIn, h1, hi]
      rw [this]; exact .name s
    | _ => exact absurd ht.2 (by simp [Token.isOperator])
  | node a l r ihl ihr =>
    obtain ⟨hA, hop, hl, hr⟩ := ht
    obtain ⟨xs, x1, x2, x3⟩ := ihl hl
    obtain ⟨ys, y1, y2, y3⟩ := ihr hr
    cases a with
    | op o =>
      refine ⟨List.zipWith (fun x y => some (opValue pow o x y)) xs ys, ?_, by simp [x2, y2], ?_⟩
      · simp only [Tree.evaluate, getOperator, x1, y1, Bind.bind, Except.bind]
        rw [npOp_same _ _ _ (by rw [x2, y2])]
      · intro i hi
        simp only [List.length_zipWith] at hi
        rw [List.getElem_zipWith]
        exact .op o l r _ _ _ (x3 i (by omega)) (y3 i (by omega)) (opMeans_opValue _ _ _ _)
    | other s => exact absurd hA.1 (hs s)
    | lpar => exact absurd rfl hA.2.1
    | rpar => exact absurd rfl hA.2.2
    | num v => simp [Token.isOperator] at hop
    | ref v => simp [Token.isOperator] at hop

theorem pairs_drop (l : List Int) (i : Nat) : Periods.pairs (l.drop i) = (Periods.pairs l).drop i := by
  induction i generalizing l with
  | zero => rfl
  | succ i ih =>
    match l with
    | [] => simp [Periods.pairs]
    | [a] => simp [Periods.pairs]
    | a :: b :: l => simpa [Periods.pairs] using ih (b :: l)

theorem pairs_take (l : List Int) (j : Nat) : Periods.pairs (l.take (j + 1)) = (Periods.pairs l).take j := by
  induction j generalizing l with
  | zero =>
    match l with
    | [] => simp [Periods.pairs]
    | a :: l => simp [Periods.pairs]
  | succ j ih =>
    match l with
    | [] => simp [Periods.pairs]
    | [a] => simp [Periods.pairs]
    | a :: b :: l => simpa [Periods.pairs] using ih (b :: l)

theorem create_pairs (l : List Int) : Periods.createPeriods l false false = Periods.pairs l := by
  cases l <;> simp [Periods.createPeriods, Periods.pairs]

theorem pairs_dates {ps : Periods} (hw : C05.WF ps) {q : Period} (hq : ps.getLast? = some q) :
    Periods.pairs (ps.map (·.start) ++ [q.stop]) = ps := by
  induction ps with
  | nil => simp at hq
  | cons p ps ih =>
    cases ps with
    | nil => simp at hq; subst hq; rfl
    | cons p' ps =>
      have := ih hw.2.2 (by simpa using hq)
      simp only [List.map_cons, List.cons_append, Periods.pairs] at this ⊢
      rw [this, ← hw.2.1]

/-- A variable map as the code builds it: consecutive periods and their dates. -/
def Built (m : VarMap) : Prop := C05.WF m.periods ∧ Periods.allDates m.periods = .ok m.timeVector

theorem built_dates {m : VarMap} (hb : Built m) : ∃ q, m.periods.getLast? = some q ∧
    m.timeVector = m.periods.map (·.start) ++ [q.stop] := by
  have h := hb.2
  unfold Periods.allDates Periods.endDates Periods.startDates at h
  rw [List.getLast?_map] at h
  cases hq : m.periods.getLast? with
  | none => rw [hq] at h; simp at h
  | some q => rw [hq] at h; simp at h; exact ⟨q, rfl, h.symm⟩

theorem pairs_len (l : List Int) : (Periods.pairs l).length = l.length - 1 := by
  match l with
  | [] => rfl
  | a :: l => rw [C01.pairs_length]; simp

theorem pairs_get (l : List Int) (k : Nat) (hk : k < (Periods.pairs l).length) :
    ∃ (h1 : k < l.length) (h2 : k + 1 < l.length), (Periods.pairs l)[k] = ⟨l[k], l[k + 1]⟩ := by
  induction l generalizing k with
  | nil => simp [Periods.pairs] at hk
  | cons a l ih =>
    cases l with
    | nil => simp [Periods.pairs] at hk
    | cons b l =>
      cases k with
      | zero => exact ⟨by simp, by simp, rfl⟩
      | succ k =>
        obtain ⟨h1, h2, h3⟩ := ih k (by simpa [Periods.pairs] using hk)
        exact ⟨by simpa using h1, by simpa using h2, by simpa [Periods.pairs] using h3⟩

theorem pairs_sorted (l : List Int) (h : C05.WF (Periods.pairs l)) : l.Pairwise (· < ·) := by
  induction l with
  | nil => exact .nil
  | cons a l ih =>
    cases l with
    | nil => exact List.pairwise_singleton _ _
    | cons b l =>
      have hl := ih (by
        cases l with
        | nil => trivial
        | cons c l => exact h.2.2)
      have hab : a < b := by
        cases l with
        | nil => exact h
        | cons c l => exact h.1
      rw [List.pairwise_cons]
      refine ⟨fun x hx => ?_, hl⟩
      rcases List.mem_cons.mp hx with rfl | hx
      · exact hab
      · exact Int.lt_trans hab ((List.pairwise_cons.mp hl).1 x hx)

/-- Dates and periods of a variable map. -/
theorem built_facts {m : VarMap} (hb : Built m) : m.timeVector.length = m.periods.length + 1 ∧
    m.timeVector.Pairwise (· < ·) ∧ ∀ (k : Nat) (hk : k < m.periods.length),
      ∃ (h1 : k < m.timeVector.length) (h2 : k + 1 < m.timeVector.length),
        m.periods[k] = ⟨m.timeVector[k], m.timeVector[k + 1]⟩ := by
  obtain ⟨q, hq, htv⟩ := built_dates hb
  have hp : Periods.pairs m.timeVector = m.periods := by rw [htv]; exact pairs_dates hb.1 hq
  refine ⟨by rw [htv]; simp, pairs_sorted _ (by rw [hp]; exact hb.1), ?_⟩
  intro k hk
  have := pairs_get m.timeVector k (by rw [hp]; exact hk)
  simpa only [hp] using this

theorem sorted_lt {l : List Int} (h : l.Pairwise (· < ·)) {i j : Nat} (hi : i < l.length) (hj : j < l.length) :
    l[i] < l[j] ↔ i < j := by
  have := List.pairwise_iff_getElem.mp h
  constructor
  · intro hlt
    rcases Nat.lt_trichotomy i j with h' | h' | h'
    · exact h'
    · subst h'; omega
    · have := this j i hj hi h'; omega
  · exact fun h' => this i j hi hj h'

theorem sorted_le {l : List Int} (h : l.Pairwise (· < ·)) {i j : Nat} (hi : i < l.length) (hj : j < l.length) :
    l[i] ≤ l[j] ↔ i ≤ j := by
  have := sorted_lt h hj hi
  omega

theorem sorted_index {l : List Int} (h : l.Pairwise (· < ·)) {i : Nat} (hi : i < l.length) :
    Periods.pyIndex l l[i] = .ok i := by
  obtain ⟨k, hk⟩ := ListAux.idxOf?_isSome (List.getElem_mem hi)
  obtain ⟨hk1, hk2⟩ := ListAux.idxOf?_some hk
  have h1 := sorted_le h hk1 hi
  have h2 := sorted_le h hi hk1
  unfold Periods.pyIndex
  rw [hk]
  simp only [Except.ok.injEq]
  omega

theorem built_period {m : VarMap} (hb : Built m) : ∃ (h0 : 0 < m.timeVector.length)
    (hn : m.periods.length < m.timeVector.length),
    m.period = .ok ⟨m.timeVector[0], m.timeVector[m.periods.length]⟩ := by
  obtain ⟨hl, -, -⟩ := built_facts hb
  refine ⟨by omega, by omega, ?_⟩
  unfold VarMap.period
  rw [List.head?_eq_getElem?, List.getLast?_eq_getElem?, List.getElem?_eq_getElem (by omega : 0 < m.timeVector.length),
    List.getElem?_eq_getElem (by omega : m.timeVector.length - 1 < m.timeVector.length)]
  simp [hl]

theorem wf_slice {ps : Periods} (hw : C05.WF ps) (i j : Nat) : C05.WF (Periods.slice ps i j) := by
  have hd : ∀ (i : Nat) (ps : Periods), C05.WF ps → C05.WF (ps.drop i) := by
    intro i
    induction i with
    | zero => intro ps h; exact h
    | succ i ih => intro ps h; cases ps with
      | nil => trivial
      | cons p ps => exact ih ps (C05.wf_tail h)
  have ht : ∀ (j : Nat) (ps : Periods), C05.WF ps → C05.WF (ps.take j) := by
    intro j
    induction j with
    | zero => intro ps h; trivial
    | succ j ih => intro ps h; match ps with
      | [] => trivial
      | [p] => simpa using h
      | p :: p' :: ps =>
        have := ih (p' :: ps) h.2.2
        cases j with
        | zero => exact h.1
        | succ j => exact ⟨h.1, h.2.1, this⟩
  exact hd i _ (ht j _ hw)

theorem subset_ok {m : VarMap} (hb : Built m) (i j : Nat) (hij : i < j) (hj : j ≤ m.periods.length) :
    ∃ sub, m.getSubset i j = .ok sub ∧ Built sub ∧ sub.periods = Periods.slice m.periods i j ∧
      sub.vars = m.vars.map (fun kv => (kv.1, Periods.slice kv.2 i j)) := by
  obtain ⟨q, hq, htv⟩ := built_dates hb
  have hps : Periods.createPeriods (Periods.slice m.timeVector i (j + 1)) false false =
      Periods.slice m.periods i j := by
    rw [create_pairs, Periods.slice, pairs_drop, pairs_take, htv, pairs_dates hb.1 hq]; rfl
  have hne : Periods.slice m.periods i j ≠ [] := by
    intro h
    have : (Periods.slice m.periods i j).length = 0 := by rw [h]; rfl
    simp [Periods.slice] at this
    omega
  obtain ⟨q', hq'⟩ : ∃ q', (Periods.slice m.periods i j).getLast? = some q' := ⟨_, List.getLast?_eq_some_getLast hne⟩
  refine ⟨⟨Periods.slice m.periods i j, (Periods.slice m.periods i j).map (·.start) ++ [q'.stop],
    m.vars.map (fun kv => (kv.1, Periods.slice kv.2 i j))⟩, ?_, ?_, rfl, rfl⟩
  · unfold VarMap.getSubset VarMap.make
    rw [hps, C05.allDates_eq hq']
    rfl
  · exact ⟨wf_slice hb.1 i j, C05.allDates_eq hq'⟩

theorem lookup_map_slice (vars : Vars) (i j : Nat) (s : String) :
    (vars.map (fun kv => (kv.1, Periods.slice kv.2 i j))).lookup s =
      (vars.lookup s).map (fun vs => Periods.slice vs i j) := by
  induction vars with
  | nil => rfl
  | cons kv vars ih =>
    obtain ⟨k, v⟩ := kv
    simp only [List.map_cons, List.lookup_cons]
    split
    · rfl
    · exact ih

/-! ## Property theorems -/

/-- An expression has one value per period, and the value in a period is the meaning of the expression under the
values the names have in that period. -/
theorem C19_value_per_period (pow : Fl → Fl → Fl) (ts : List Token) (e : Expr) (vars : Vars) (n : Nat)
    (hm : Expr.make ts = .ok e) (hs : Supported ts) (ha : Available vars n ts) :
    ∃ vs, e.evaluate pow vars n = .ok vs ∧ vs.length = n ∧
      ∀ (i : Nat) (hi : i < vs.length), Means pow (valueIn vars i) e.tree vs[i] := by
  obtain ⟨he, hover⟩ := make_over ts e hm
  have hall : (refs e.tokens).all (fun r => (vars.lookup r).isSome) = true := by
    rw [List.all_eq_true]
    intro s hsm
    rw [he, refs_mem] at hsm
    obtain ⟨vs, h1, -⟩ := ha s hsm
    simp [h1]
  unfold Expr.evaluate
  rw [if_pos hall]
  exact tree_value pow vars n ts hs ha e.tree hover

/-- The meaning is unique, so the theorem above determines every value. -/
theorem C19_meaning_unique (pow : Fl → Fl → Fl) (val : String → Fl) (t : Tree) (x y : Fl)
    (h1 : Means pow val t x) (h2 : Means pow val t y) : x = y := means_unique pow val t x y h1 h2

/-- A reference without values is reported as an invalid expression. -/
theorem C19_missing_reference (pow : Fl → Fl → Fl) (ts : List Token) (e : Expr) (vars : Vars) (n : Nat)
    (hm : Expr.make ts = .ok e) (s : String) (hs : .ref s ∈ ts) (hv : vars.lookup s = none) :
    e.evaluate pow vars n = .error .valueError := by
  obtain ⟨he, -⟩ := make_over ts e hm
  unfold Expr.evaluate
  rw [if_neg]
  rw [List.all_eq_true]
  intro h
  have := h s (by rw [he, refs_mem]; exact hs)
  simp [hv] at this

/-- The value in a period depends only on the values the names have in that period: two variable maps (of possibly
different lengths) that agree there give the same value. -/
theorem C19_local (pow : Fl → Fl → Fl) (ts : List Token) (e : Expr) (vars vars' : Vars) (n n' i i' : Nat)
    (hm : Expr.make ts = .ok e) (hs : Supported ts) (ha : Available vars n ts) (ha' : Available vars' n' ts)
    (hi : i < n) (hi' : i' < n') (hagree : ∀ s, .ref s ∈ ts → valueIn vars i s = valueIn vars' i' s) :
    ∃ vs vs' x, e.evaluate pow vars n = .ok vs ∧ e.evaluate pow vars' n' = .ok vs' ∧
      vs[i]? = some x ∧ vs'[i']? = some x := by
  obtain ⟨vs, h1, h2, h3⟩ := C19_value_per_period pow ts e vars n hm hs ha
  obtain ⟨vs', h1', h2', h3'⟩ := C19_value_per_period pow ts e vars' n' hm hs ha'
  have hcong : ∀ t x, TreeOver (fun x => x ∈ ts ∧ x ≠ .lpar ∧ x ≠ .rpar) t → Means pow (valueIn vars i) t x →
      Means pow (valueIn vars' i') t x := by
    intro t
    induction t with
    | leaf a =>
      intro x ht h
      cases h with
      | number v => exact .number v
      | name s => rw [hagree s ht.1.1]; exact .name s
    | node a l r ihl ihr =>
      intro x ht h
      cases h with
      | op o _ _ a b x hl hr ho => exact .op o l r a b x (ihl a ht.2.2.1 hl) (ihr b ht.2.2.2 hr) ho
  have m1 := hcong _ _ (make_over ts e hm).2 (h3 i (by omega))
  have m2 := h3' i' (by omega)
  have := means_unique _ _ _ _ _ m1 m2
  exact ⟨vs, vs', vs[i]'(by omega), h1, h1', by simp [h2, hi], by rw [this]; simp [h2', hi']⟩

/-- Restricting the variables to a range of periods and evaluating is evaluating and restricting the result. -/
theorem C19_subset (pow : Fl → Fl → Fl) (ts : List Token) (e : Expr) (m : VarMap) (i j : Nat)
    (hm : Expr.make ts = .ok e) (hs : Supported ts) (hb : Built m) (ha : Available m.vars m.periods.length ts)
    (hij : i < j) (hj : j ≤ m.periods.length) :
    ∃ sub vs, m.getSubset i j = .ok sub ∧ sub.periods = (m.periods.take j).drop i ∧
      m.evaluate pow e = .ok vs ∧ sub.evaluate pow e = .ok ((vs.take j).drop i) := by
  obtain ⟨sub, h1, -, h3, h4⟩ := subset_ok hb i j hij hj
  have hlen : sub.periods.length = j - i := by rw [h3]; simp [Periods.slice]; omega
  have ha' : Available sub.vars sub.periods.length ts := by
    intro s hsm
    obtain ⟨vs, v1, v2⟩ := ha s hsm
    refine ⟨Periods.slice vs i j, by rw [h4, lookup_map_slice, v1]; rfl, ?_⟩
    rw [hlen]; simp [Periods.slice]; omega
  obtain ⟨vs, e1, e2, e3⟩ := C19_value_per_period pow ts e m.vars m.periods.length hm hs ha
  obtain ⟨ws, f1, f2, f3⟩ := C19_value_per_period pow ts e sub.vars sub.periods.length hm hs ha'
  refine ⟨sub, vs, h1, h3, e1, ?_⟩
  have : ws = (vs.take j).drop i := by
    apply List.ext_getElem
    · simp; omega
    · intro k hk hk'
      have hk2 : k < j - i := by omega
      obtain ⟨vs1, ws1, x, a1, a2, a3, a4⟩ := C19_local pow ts e m.vars sub.vars m.periods.length
        sub.periods.length (i + k) k hm hs ha ha' (by omega) (by omega) (by
          intro s hsm
          obtain ⟨us, v1, v2⟩ := ha s hsm
          unfold valueIn
          rw [h4, lookup_map_slice, v1]
          simp only [Option.map_some, Option.getD_some, Periods.slice]
          rw [List.getElem?_drop, List.getElem?_take]
          rw [if_pos (by omega)])
      rw [e1] at a1; rw [f1] at a2
      obtain rfl := Except.ok.inj a1
      obtain rfl := Except.ok.inj a2
      rw [List.getElem_drop, List.getElem_take]
      rw [List.getElem?_eq_some_iff] at a3 a4
      obtain ⟨_, a3⟩ := a3
      obtain ⟨_, a4⟩ := a4
      rw [a3, a4]
  rw [← this]
  exact f1

/-- The variables of one time step are those of the period that starts there. -/
theorem C19_subset_for_timestep (m : VarMap) (hb : Built m) (k : Nat) (hk : k < m.periods.length) :
    ∃ sub, m.getSubsetForTimestep (m.periods[k]).start = .ok sub ∧ sub.periods = [m.periods[k]] ∧
      sub.vars = m.vars.map (fun kv => (kv.1, (kv.2.take (k + 1)).drop k)) := by
  obtain ⟨hl, hsort, hper⟩ := built_facts hb
  obtain ⟨h1, h2, h3⟩ := hper k hk
  have hidx : Periods.pyIndex m.timeVector (m.periods[k]).start = .ok k := by
    rw [h3]; exact sorted_index hsort h1
  obtain ⟨sub, h1, -, h3, h4⟩ := subset_ok hb k (k + 1) (by omega) (by omega)
  refine ⟨sub, ?_, ?_, h4⟩
  · unfold VarMap.getSubsetForTimestep
    rw [hidx]
    exact h1
  · rw [h3]
    apply List.ext_getElem
    · simp [Periods.slice]; omega
    · intro a ha hb
      simp at hb
      subst hb
      simp [Periods.slice]

/-- Finding: the last date of the map has no period, asking for it is an IndexError. -/
theorem C19_last_timestep_is_error (m : VarMap) (hb : Built m) (own : Period) (ho : m.period = .ok own) :
    m.getSubsetForTimestep own.stop = .error .indexError := by
  obtain ⟨hl, hsort, hper⟩ := built_facts hb
  obtain ⟨h0, hn, hp⟩ := built_period hb
  rw [hp] at ho
  obtain rfl := Except.ok.inj ho
  unfold VarMap.getSubsetForTimestep
  simp only [sorted_index hsort hn, Bind.bind, Except.bind]
  unfold VarMap.getSubset
  rw [create_pairs]
  have : Periods.pairs (Periods.slice m.timeVector m.periods.length (m.periods.length + 1 + 1)) = [] := by
    apply List.eq_nil_of_length_eq_zero
    rw [pairs_len]
    simp [Periods.slice]
    omega
  rw [this]
  rfl

/-- The variables for a period whose boundaries are boundaries of the map: exactly the periods inside it. -/
theorem C19_subset_for_period (m : VarMap) (hb : Built m) (p : Period) (hp : p.start < p.stop)
    (hs : p.start ∈ m.timeVector) (he : p.stop ∈ m.timeVector) :
    ∃ sub i j, m.getSubsetForPeriod p = .ok sub ∧ m.getSubset i j = .ok sub ∧
      sub.periods = m.periods.filter (fun q => decide (p.start ≤ q.start ∧ q.stop ≤ p.stop)) := by
  obtain ⟨hl, hsort, hper⟩ := built_facts hb
  obtain ⟨h0, hn, hown⟩ := built_period hb
  obtain ⟨i, hi, his⟩ := List.mem_iff_getElem.mp hs
  obtain ⟨j, hj, hje⟩ := List.mem_iff_getElem.mp he
  have hij : i < j := (sorted_lt hsort hi hj).mp (by omega)
  have ha : m.timeVector[0] ≤ p.start := by rw [← his]; exact (sorted_le hsort h0 hi).mpr (by omega)
  have hz : p.stop ≤ m.timeVector[m.periods.length] := by
    rw [← hje]; exact (sorted_le hsort hj hn).mpr (by omega)
  obtain ⟨sub, h1, -, h3, h4⟩ := subset_ok hb i j hij (by omega)
  refine ⟨sub, i, j, ?_, h1, ?_⟩
  · unfold VarMap.getSubsetForPeriod
    rw [hown]
    simp only [Bind.bind, Except.bind]
    have hint : Period.intersects ⟨m.timeVector[0], m.timeVector[m.periods.length]⟩ p = true := by
      simp [Period.intersects, Period.containsDate]; omega
    rw [hint]
    simp only [Bool.not_true, Bool.false_eq_true, if_false]
    rw [if_pos]
    · rw [← his, ← hje, sorted_index hsort hi, sorted_index hsort hj]
      exact h1
    · rw [show max p.start m.timeVector[0] = p.start by omega,
        show min p.stop m.timeVector[m.periods.length] = p.stop by omega]
      exact ⟨hs, he⟩
  · rw [h3]
    symm
    apply ListAux.filter_eq_slice
    intro k hk
    obtain ⟨k1, k2, k3⟩ := hper k hk
    rw [k3, decide_eq_true_eq]
    simp only [← his, ← hje]
    rw [sorted_le hsort hi k1, sorted_le hsort k2 hj]
    omega

/-- Finding: a period that reaches beyond the end of the map is an error although the code means to clamp it. -/
theorem C19_subset_beyond_is_error (m : VarMap) (hb : Built m) (p own : Period) (ho : m.period = .ok own)
    (hs : p.start ∈ m.timeVector) (hlt : p.start < own.stop) (he : own.stop < p.stop) :
    m.getSubsetForPeriod p = .error .valueError := by
  obtain ⟨hl, hsort, hper⟩ := built_facts hb
  obtain ⟨h0, hn, hown⟩ := built_period hb
  rw [hown] at ho
  obtain rfl := Except.ok.inj ho
  simp only at hlt he
  obtain ⟨i, hi, his⟩ := List.mem_iff_getElem.mp hs
  have ha : m.timeVector[0] ≤ p.start := by rw [← his]; exact (sorted_le hsort h0 hi).mpr (by omega)
  unfold VarMap.getSubsetForPeriod
  rw [hown]
  simp only [Bind.bind, Except.bind]
  have hint : Period.intersects ⟨m.timeVector[0], m.timeVector[m.periods.length]⟩ p = true := by
    simp [Period.intersects, Period.containsDate]; omega
  rw [hint]
  simp only [Bool.not_true, Bool.false_eq_true, if_false]
  rw [if_pos]
  · rw [← his, sorted_index hsort hi]
    simp only
    have : p.stop ∉ m.timeVector := by
      intro hmem
      obtain ⟨j, hj, hje⟩ := List.mem_iff_getElem.mp hmem
      have := (sorted_le hsort hj hn).mpr (by omega)
      omega
    have hnone : m.timeVector.idxOf? p.stop = none := by simpa using this
    unfold Periods.pyIndex
    rw [hnone]
  · rw [show max p.start m.timeVector[0] = p.start by omega,
      show min p.stop m.timeVector[m.periods.length] = m.timeVector[m.periods.length] by omega]
    exact ⟨hs, List.getElem_mem hn⟩

/-! ## Non-vacuity -/

/-- Three consecutive periods and one variable. -/
def sampleMap : VarMap := ⟨[⟨0, 10⟩, ⟨10, 20⟩, ⟨20, 30⟩], [0, 10, 20, 30], [("x", [some 1, none, some 3])]⟩

example : Built sampleMap := ⟨by decide, rfl⟩

example : Available sampleMap.vars sampleMap.periods.length [.ref "x", .op .div, .num 2] := by
  intro s hs
  simp at hs
  subst hs
  exact ⟨[some 1, none, some 3], rfl, rfl⟩

example : Supported [.ref "x", .op .div, .num 2] := by intro s; simp

example : (Expr.make [.ref "x", .op .div, .num 2]).bind (fun e => sampleMap.evaluate (fun _ _ => none) e) =
    .ok [some (1 / 2), some 0, some (3 / 2)] := by decide +kernel

end Verif.C19
