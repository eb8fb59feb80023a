import Verif.Model.Expression

/-!
# C18: expressions are parsed with the documented precedence and associativity
-/

namespace Verif.C18
open Verif.Time Verif.Rates Verif.Expression

/-! ## Specification: written forms of an expression tree -/

/-- How tightly an operator binds. -/
def level : Op → Nat
  | .pow => 9 | .mul => 8 | .div => 8 | .add => 7 | .sub => 7
  | .eq => 6 | .ne => 5 | .lt => 4 | .gt => 3 | .le => 2 | .ge => 1

/-- Only the power operator groups to the right. -/
def groupsLeft (o : Op) : Prop := o ≠ .pow

instance (o : Op) : Decidable (groupsLeft o) := inferInstanceAs (Decidable (o ≠ .pow))

/-- `Written n t ts`: the tokens `ts` are a way of writing the tree `t` at a place where only operators of
level at least `n` may stand without parentheses. Parentheses may be added anywhere. -/
inductive Written : Nat → Tree → List Token → Prop
  | number (n v) : Written n (.leaf (.num v)) [.num v]
  | name (n s) : Written n (.leaf (.ref s)) [.ref s]
  | paren (n t ts) : Written 0 t ts → Written n t ([.lpar] ++ ts ++ [.rpar])
  | left (n o l r ls rs) : groupsLeft o → n ≤ level o → Written (level o) l ls → Written (level o + 1) r rs →
      Written n (.node (.op o) l r) (ls ++ [.op o] ++ rs)
  | right (n o l r ls rs) : ¬ groupsLeft o → n ≤ level o → Written (level o + 1) l ls → Written (level o) r rs →
      Written n (.node (.op o) l r) (ls ++ [.op o] ++ rs)

/-- The written form with the fewest parentheses. -/
def print : Nat → Tree → List Token
  | _, .leaf t => [t]
  | n, .node (.op o) l r =>
    let body := if groupsLeft o then print (level o) l ++ [.op o] ++ print (level o + 1) r
      else print (level o + 1) l ++ [.op o] ++ print (level o) r
    if n ≤ level o then body else [.lpar] ++ body ++ [.rpar]
  | _, .node _ _ _ => []

/-- Trees of numbers, names and the supported operators. -/
def Proper : Tree → Prop
  | .leaf (.num _) => True
  | .leaf (.ref _) => True
  | .node (.op _) l r => Proper l ∧ Proper r
  | _ => False

/-- Parentheses match: never more closed than opened, none left open (`d` are open already). -/
def Balanced : Nat → List Token → Prop
  | d, [] => d = 0
  | d, .lpar :: ts => Balanced (d + 1) ts
  | 0, .rpar :: _ => False
  | d + 1, .rpar :: ts => Balanced d ts
  | d, _ :: ts => Balanced d ts

/-! ## Helper lemmas -/

theorem prec_lt (a b : Op) : a.prec < b.prec ↔ level a < level b := by
  cases a <;> cases b <;> decide

theorem prec_eq (a b : Op) : a.prec = b.prec ↔ level a = level b := by
  cases a <;> cases b <;> decide

theorem isLeft_iff (a : Op) : a.isLeft = true ↔ groupsLeft a := by
  cases a <;> decide

theorem left_of_level (a b : Op) (h : level a = level b) : groupsLeft a ↔ groupsLeft b := by
  revert h; cases a <;> cases b <;> decide

/-- Postfix form of a tree. -/
def post : Tree → List Token
  | .leaf t => [t]
  | .node t l r => post l ++ post r ++ [t]

/-- What may be on top of the stack where an expression of level `n` starts. -/
def TopOk (n : Nat) : List Token → Prop
  | [] => True
  | .lpar :: _ => True
  | .op o :: _ => level o < n ∨ (level o = n ∧ ¬ groupsLeft o)
  | _ => False

theorem popOps_pop (o : Op) (ops : List Op) (S out : List Token)
    (h : ∀ a ∈ ops, level o < level a ∨ (level a = level o ∧ groupsLeft o)) :
    popOps (.op o) (ops.map .op ++ S) out = popOps (.op o) S (out ++ ops.map .op) := by
  induction ops generalizing out with
  | nil => simp
  | cons a ops ih =>
    have ha := h a (by simp)
    rw [List.map_cons, List.cons_append, popOps]
    · simp only [getOperator, Bind.bind, Except.bind]
      rw [if_pos]
      · rw [ih _ (fun b hb => h b (by simp [hb]))]; simp
      · rcases ha with ha | ⟨ha, hl⟩
        · exact .inl ((prec_lt _ _).mpr ha)
        · exact .inr ⟨((prec_eq _ _).mpr ha.symm), (isLeft_iff o).mpr hl⟩
    · simp

theorem popOps_stop (o : Op) (n : Nat) (hn : n ≤ level o) (S out : List Token) (h : TopOk n S) :
    popOps (.op o) S out = .ok (S, out) := by
  match S, h with
  | [], _ => rfl
  | .lpar :: S, _ => rfl
  | .op a :: S, h =>
    rw [popOps]
    · simp only [getOperator, Bind.bind, Except.bind]
      rw [if_neg]; · rfl
      rintro (h' | ⟨h', hl⟩)
      · have := (prec_lt _ _).mp h'
        rcases h with h | ⟨h, -⟩ <;> omega
      · have he := (prec_eq _ _).mp h'
        have hl := (isLeft_iff o).mp hl
        rcases h with h | ⟨h, hr⟩
        · omega
        · exact hr ((left_of_level _ _ he).mp hl)
    · simp

theorem popParen_ops (ops : List Op) (S out : List Token) :
    popParen (ops.map .op ++ .lpar :: S) out = .ok (S, out ++ ops.map .op) := by
  induction ops generalizing out with
  | nil => simp [popParen]
  | cons a ops ih =>
    rw [List.map_cons, List.cons_append, popParen]
    · rw [ih]; simp
    · simp

theorem popRest_ops (ops : List Op) (out : List Token) :
    popRest (ops.map .op) out = .ok (out ++ ops.map .op) := by
  induction ops generalizing out with
  | nil => simp [popRest]
  | cons a ops ih =>
    rw [List.map_cons, popRest]
    · rw [ih]; simp
    · simp

theorem loop_append (s : List Token × List Token) (as bs : List Token) :
    postfixLoop s (as ++ bs) = (postfixLoop s as).bind (fun s' => postfixLoop s' bs) := by
  induction as generalizing s with
  | nil => rfl
  | cons a as ih =>
    simp only [List.cons_append, postfixLoop, Bind.bind]
    cases postfixStep s a with
    | error e => rfl
    | ok s' => simp only [Except.bind]; rw [ih]; rfl

theorem TopOk.mono {n m : Nat} {S : List Token} (h : TopOk n S) (hm : n ≤ m) : TopOk m S := by
  match S, h with
  | [], _ => trivial
  | .lpar :: S, _ => trivial
  | .op a :: S, h =>
    rcases h with h | ⟨h, hr⟩
    · exact .inl (by omega)
    · rcases Nat.lt_or_eq_of_le hm with hlt | rfl
      · exact .inl (by omega)
      · exact .inr ⟨h, hr⟩

theorem loop_written {n : Nat} {t : Tree} {ts : List Token} (hw : Written n t ts) :
    ∀ S out, TopOk n S → ∃ (ops : List Op) (out' : List Token),
      postfixLoop (S, out) ts = .ok (ops.map .op ++ S, out') ∧
      out' ++ ops.map .op = out ++ post t ∧ ∀ a ∈ ops, n ≤ level a := by
  induction hw with
  | number n v => intro S out _; exact ⟨[], out ++ [.num v], rfl, by simp [post], by simp⟩
  | name n v => intro S out _; exact ⟨[], out ++ [.ref v], rfl, by simp [post], by simp⟩
  | paren n t ts _ ih =>
    intro S out _
    obtain ⟨ops, out', h1, h2, _⟩ := ih (.lpar :: S) out trivial
    refine ⟨[], out' ++ ops.map .op, ?_, by simpa using h2, by simp⟩
    rw [List.append_assoc, loop_append]
    simp only [postfixLoop, postfixStep, Bind.bind, Except.bind]
    rw [loop_append, h1]
    simp only [Except.bind, postfixLoop, postfixStep, Bind.bind]
    rw [popParen_ops]; simp
  | left n o l r ls rs ho hn _ _ ihl ihr =>
    intro S out hS
    obtain ⟨opsL, outL, l1, l2, l3⟩ := ihl S out (hS.mono hn)
    obtain ⟨opsR, outR, r1, r2, r3⟩ := ihr (.op o :: S) (outL ++ opsL.map .op) (.inl (by omega))
    refine ⟨opsR ++ [o], outR, ?_, ?_, ?_⟩
    · rw [List.append_assoc, loop_append, l1]
      simp only [Except.bind, List.singleton_append, postfixLoop, postfixStep, Bind.bind]
      rw [popOps_pop, popOps_stop o n hn S _ hS]
      · simp only [Pure.pure, Except.pure]
        rw [r1]; simp
      · intro a ha
        rcases Nat.lt_or_eq_of_le (l3 a ha) with h | h
        · exact .inl h
        · exact .inr ⟨h.symm, ho⟩
    · rw [List.map_append, ← List.append_assoc, r2, l2]; simp [post]
    · intro a ha
      rcases List.mem_append.mp ha with h | h
      · have := r3 a h; omega
      · simp at h; subst h; exact hn
  | right n o l r ls rs ho hn _ _ ihl ihr =>
    intro S out hS
    obtain ⟨opsL, outL, l1, l2, l3⟩ := ihl S out (hS.mono (by omega))
    obtain ⟨opsR, outR, r1, r2, r3⟩ := ihr (.op o :: S) (outL ++ opsL.map .op) (.inr ⟨rfl, ho⟩)
    refine ⟨opsR ++ [o], outR, ?_, ?_, ?_⟩
    · rw [List.append_assoc, loop_append, l1]
      simp only [Except.bind, List.singleton_append, postfixLoop, postfixStep, Bind.bind]
      rw [popOps_pop, popOps_stop o n hn S _ hS]
      · simp only [Pure.pure, Except.pure]
        rw [r1]; simp
      · intro a ha
        have := l3 a ha
        exact .inl (by omega)
    · rw [List.map_append, ← List.append_assoc, r2, l2]; simp [post]
    · intro a ha
      rcases List.mem_append.mp ha with h | h
      · have := r3 a h; omega
      · simp at h; subst h; exact hn

theorem treeLoop_post {n : Nat} {t : Tree} {ts : List Token} (hw : Written n t ts) :
    ∀ st rest, treeLoop st (post t ++ rest) = treeLoop (t :: st) rest := by
  induction hw with
  | number n v => intro st rest; rfl
  | name n v => intro st rest; rfl
  | paren n t ts _ ih => exact ih
  | left n o l r ls rs _ _ _ _ ihl ihr =>
    intro st rest
    rw [post, List.append_assoc, List.append_assoc, ihl, ihr]; rfl
  | right n o l r ls rs _ _ _ _ ihl ihr =>
    intro st rest
    rw [post, List.append_assoc, List.append_assoc, ihl, ihr]; rfl

theorem make_written {t : Tree} {ts : List Token} (hw : Written 0 t ts) : Expr.make ts = .ok ⟨ts, t⟩ := by
  obtain ⟨ops, out, h1, h2, -⟩ := loop_written hw [] [] trivial
  have hp : getPostfix ts = .ok (post t) := by
    unfold getPostfix
    rw [h1]
    simp only [Bind.bind, Except.bind, List.append_nil]
    rw [popRest_ops, h2]; rfl
  have ht := treeLoop_post hw [] []
  rw [List.append_nil] at ht
  unfold Expr.make getTree
  rw [hp]
  simp only [Bind.bind, Except.bind]
  rw [ht]
  rfl

theorem written_print (t : Tree) (h : Proper t) : ∀ n, Written n t (print n t) := by
  induction t with
  | leaf a => intro n; cases a <;> first | exact absurd h (fun h => h) | constructor
  | node a l r ihl ihr =>
    intro n
    cases a with
    | op o =>
      rw [print]
      split
      · rename_i hn
        split
        · rename_i hl; exact .left _ _ _ _ _ _ hl hn (ihl h.1 _) (ihr h.2 _)
        · rename_i hl; exact .right _ _ _ _ _ _ hl hn (ihl h.1 _) (ihr h.2 _)
      · apply Written.paren
        split
        · rename_i hl; exact .left _ _ _ _ _ _ hl (by omega) (ihl h.1 _) (ihr h.2 _)
        · rename_i hl; exact .right _ _ _ _ _ _ hl (by omega) (ihl h.1 _) (ihr h.2 _)
    | _ => exact absurd h (fun h => h)

/-- Number of open parentheses on the stack. -/
def open' (S : List Token) : Nat := S.countP (· = .lpar)

theorem popOps_open (t : Token) (S out : List Token) :
    (∃ S' out', popOps t S out = .ok (S', out') ∧ open' S' = open' S) ∨ popOps t S out = .error .valueError := by
  induction S generalizing out with
  | nil => exact .inl ⟨[], out, rfl, rfl⟩
  | cons a S ih =>
    cases a with
    | lpar => exact .inl ⟨_, out, rfl, rfl⟩
    | op o =>
      simp only [popOps]
      cases t with
      | op o' =>
        simp only [getOperator, Bind.bind, Except.bind]
        split
        · rcases ih (out ++ [.op o]) with ⟨S', out', h, h'⟩ | h
          · exact .inl ⟨S', out', h, by rw [h']; simp [open']⟩
          · exact .inr h
        · exact .inl ⟨_, _, rfl, rfl⟩
      | _ => exact .inr rfl
    | _ => exact .inr rfl

theorem popParen_open (S out : List Token) :
    (∃ S' out', popParen S out = .ok (S', out') ∧ open' S = open' S' + 1) ∨
      (open' S = 0 ∧ popParen S out = .error .valueError) := by
  induction S generalizing out with
  | nil => exact .inr ⟨rfl, rfl⟩
  | cons a S ih =>
    by_cases ha : a = .lpar
    · subst ha; exact .inl ⟨S, out, rfl, by simp [open']⟩
    · have hd : open' (a :: S) = open' S := by simp [open', ha]
      rw [hd, popParen]
      · exact ih (out ++ [a])
      · exact ha

theorem popRest_open (S out : List Token) :
    (∃ out', popRest S out = .ok out' ∧ open' S = 0) ∨ (open' S ≠ 0 ∧ popRest S out = .error .valueError) := by
  induction S generalizing out with
  | nil => exact .inl ⟨out, rfl, rfl⟩
  | cons a S ih =>
    by_cases ha : a = .lpar
    · subst ha; exact .inr ⟨by simp [open'], rfl⟩
    · have hd : open' (a :: S) = open' S := by simp [open', ha]
      rw [hd, popRest]
      · exact ih (out ++ [a])
      · exact ha

theorem loop_balanced (ts : List Token) : ∀ S out,
    (∃ S' out', postfixLoop (S, out) ts = .ok (S', out') ∧ (Balanced (open' S) ts ↔ open' S' = 0)) ∨
      postfixLoop (S, out) ts = .error .valueError := by
  induction ts with
  | nil => intro S out; exact .inl ⟨S, out, rfl, Iff.rfl⟩
  | cons a ts ih =>
    intro S out
    have hop : ∀ (a : Token), (postfixStep (S, out) a = do
          let (st, out) ← popOps a S out
          return (a :: st, out)) → a ≠ .lpar → (∀ d, Balanced d (a :: ts) ↔ Balanced d ts) →
        (∃ S' out', postfixLoop (S, out) (a :: ts) = .ok (S', out') ∧ (Balanced (open' S) (a :: ts) ↔ open' S' = 0)) ∨
          postfixLoop (S, out) (a :: ts) = .error .valueError := by
      intro a h ha hb
      simp only [postfixLoop, h, Bind.bind]
      rcases popOps_open a S out with ⟨S1, out1, h1, h2⟩ | h1
      · rw [h1]
        simp only [Except.bind, Pure.pure, Except.pure]
        have h3 : open' (a :: S1) = open' S := by rw [← h2]; simp [open', ha]
        have := ih (a :: S1) out1
        rw [h3] at this
        rw [hb]
        exact this
      · rw [h1]; exact .inr rfl
    cases a with
    | num v =>
      have := ih S (out ++ [.num v])
      simpa only [postfixLoop, postfixStep, Bind.bind, Except.bind, Balanced] using this
    | ref v =>
      have := ih S (out ++ [.ref v])
      simpa only [postfixLoop, postfixStep, Bind.bind, Except.bind, Balanced] using this
    | lpar =>
      have := ih (.lpar :: S) out
      have h3 : open' (.lpar :: S) = open' S + 1 := by simp [open']
      rw [h3] at this
      simpa only [postfixLoop, postfixStep, Bind.bind, Except.bind, Balanced] using this
    | op o => exact hop _ rfl (by simp) (fun d => by simp [Balanced])
    | other o => exact hop _ rfl (by simp) (fun d => by simp [Balanced])
    | rpar =>
      simp only [postfixLoop, postfixStep, Bind.bind]
      rcases popParen_open S out with ⟨S1, out1, h1, h2⟩ | ⟨_, h1⟩
      · rw [h1, h2]
        simp only [Except.bind, Balanced]
        exact ih S1 out1
      · rw [h1]; exact .inr rfl

theorem postfix_cases (ts : List Token) :
    (∃ p, getPostfix ts = .ok p ∧ Balanced 0 ts) ∨ getPostfix ts = .error .valueError := by
  unfold getPostfix
  rcases loop_balanced ts [] [] with ⟨S, out, h, hb⟩ | h
  · rw [h]
    simp only [Bind.bind, Except.bind]
    rcases popRest_open S out with ⟨p, h1, h2⟩ | ⟨_, h1⟩
    · exact .inl ⟨p, h1, hb.mpr h2⟩
    · exact .inr h1
  · rw [h]; exact .inr rfl

theorem treeLoop_ne (ts : List Token) : ∀ st, (st ≠ [] ∨ ts ≠ []) →
    (∃ t st', treeLoop st ts = .ok (t :: st')) ∨ treeLoop st ts = .error .valueError := by
  induction ts with
  | nil =>
    intro st h
    match st, h with
    | [], h => simp at h
    | t :: st, _ => exact .inl ⟨t, st, rfl⟩
  | cons a ts ih =>
    intro st _
    unfold treeLoop
    split
    · split
      · exact ih _ (.inl (by simp))
      · exact .inr rfl
    · exact ih _ (.inl (by simp))

/-- Tokens other than parentheses. -/
def solid (t : Token) : Bool := t ≠ .lpar ∧ t ≠ .rpar

theorem popOps_count (t : Token) (S out S' out' : List Token) (h : popOps t S out = .ok (S', out')) :
    S'.countP solid + out'.countP solid = S.countP solid + out.countP solid ∧
      (.rpar ∉ S → .rpar ∉ out → .lpar ∉ out → .rpar ∉ S' ∧ .rpar ∉ out' ∧ .lpar ∉ out') := by
  induction S generalizing out with
  | nil =>
    simp only [popOps, Except.ok.injEq, Prod.mk.injEq] at h
    obtain ⟨rfl, rfl⟩ := h
    exact ⟨rfl, fun a b c => ⟨a, b, c⟩⟩
  | cons a S ih =>
    by_cases ha : a = .lpar
    · subst ha
      simp only [popOps, Except.ok.injEq, Prod.mk.injEq] at h
      obtain ⟨rfl, rfl⟩ := h
      exact ⟨rfl, fun a b c => ⟨a, b, c⟩⟩
    · have e : popOps t (a :: S) out = (do
          let p2 ← getOperator a
          let p1 ← getOperator t
          if p2.prec > p1.prec ∨ (p1.prec = p2.prec ∧ p1.isLeft = true) then popOps t S (out ++ [a])
          else return (a :: S, out)) := by
        rw [popOps]; exact ha
      rw [e] at h
      simp only [Bind.bind, Except.bind, Pure.pure, Except.pure] at h
      split at h; · simp at h
      split at h; · simp at h
      split at h
      · have := ih _ h
        simp only [List.countP_append, List.countP_cons, List.countP_nil] at this ⊢
        refine ⟨by omega, fun hn h1 h2 => this.2 (fun hm => hn (by simp [hm])) ?_ ?_⟩
        · simp only [List.mem_append, List.mem_singleton, not_or]; exact ⟨h1, fun he => hn (by simp [he])⟩
        · simp only [List.mem_append, List.mem_singleton, not_or]; exact ⟨h2, fun he => ha he.symm⟩
      · simp only [Except.ok.injEq, Prod.mk.injEq] at h; obtain ⟨rfl, rfl⟩ := h
        exact ⟨rfl, fun a b c => ⟨a, b, c⟩⟩

theorem popParen_count (S out S' out' : List Token) (h : popParen S out = .ok (S', out')) :
    S'.countP solid + out'.countP solid = S.countP solid + out.countP solid ∧
      (.rpar ∉ S → .rpar ∉ out → .lpar ∉ out → .rpar ∉ S' ∧ .rpar ∉ out' ∧ .lpar ∉ out') := by
  induction S generalizing out with
  | nil => simp [popParen] at h
  | cons a S ih =>
    by_cases ha : a = .lpar
    · subst ha; simp only [popParen, Except.ok.injEq, Prod.mk.injEq] at h; obtain ⟨rfl, rfl⟩ := h
      exact ⟨by simp [solid], fun a b c => ⟨fun hm => a (by simp [hm]), b, c⟩⟩
    · have e : popParen (a :: S) out = popParen S (out ++ [a]) := by rw [popParen]; exact ha
      rw [e] at h
      have := ih _ h
      simp only [List.countP_append, List.countP_cons, List.countP_nil] at this ⊢
      refine ⟨by omega, fun hn h1 h2 => this.2 (fun hm => hn (by simp [hm])) ?_ ?_⟩
      · simp only [List.mem_append, List.mem_singleton, not_or]; exact ⟨h1, fun he => hn (by simp [he])⟩
      · simp only [List.mem_append, List.mem_singleton, not_or]; exact ⟨h2, fun he => ha he.symm⟩

theorem popRest_count (S out p : List Token) (h : popRest S out = .ok p) :
    p.countP solid = S.countP solid + out.countP solid ∧
      (.rpar ∉ S → .rpar ∉ out → .lpar ∉ out → .rpar ∉ p ∧ .lpar ∉ p) := by
  induction S generalizing out with
  | nil => simp only [popRest, Except.ok.injEq] at h; subst h; exact ⟨by simp, fun _ b c => ⟨b, c⟩⟩
  | cons a S ih =>
    by_cases ha : a = .lpar
    · subst ha; simp [popRest] at h
    · have e : popRest (a :: S) out = popRest S (out ++ [a]) := by rw [popRest]; exact ha
      rw [e] at h
      have := ih _ h
      simp only [List.countP_append, List.countP_cons, List.countP_nil] at this ⊢
      refine ⟨by omega, fun hn h1 h2 => this.2 (fun hm => hn (by simp [hm])) ?_ ?_⟩
      · simp only [List.mem_append, List.mem_singleton, not_or]; exact ⟨h1, fun he => hn (by simp [he])⟩
      · simp only [List.mem_append, List.mem_singleton, not_or]; exact ⟨h2, fun he => ha he.symm⟩

theorem step_count (s s' : List Token × List Token) (t : Token) (h : postfixStep s t = .ok s') :
    s'.1.countP solid + s'.2.countP solid = s.1.countP solid + s.2.countP solid + [t].countP solid ∧
      (.rpar ∉ s.1 → .rpar ∉ s.2 → .lpar ∉ s.2 → .rpar ∉ s'.1 ∧ .rpar ∉ s'.2 ∧ .lpar ∉ s'.2) := by
  obtain ⟨S, out⟩ := s
  obtain ⟨S', out'⟩ := s'
  have hop : t ≠ .rpar → solid t = true → (do
          let (st, out) ← popOps t S out
          return (t :: st, out)) = Except.ok (ε := Err) (S', out') →
      S'.countP solid + out'.countP solid = S.countP solid + out.countP solid + [t].countP solid ∧
      (.rpar ∉ S → .rpar ∉ out → .lpar ∉ out → .rpar ∉ S' ∧ .rpar ∉ out' ∧ .lpar ∉ out') := by
    intro hr hs h
    simp only [Bind.bind, Except.bind, Pure.pure, Except.pure] at h
    split at h; · simp at h
    rename_i r hr'
    obtain ⟨S1, out1⟩ := r
    simp only [Except.ok.injEq, Prod.mk.injEq] at h
    obtain ⟨rfl, rfl⟩ := h
    have := popOps_count _ _ _ _ _ hr'
    simp only [List.countP_cons, List.countP_nil, hs] at this ⊢
    refine ⟨by simp; omega, fun a b c => ?_⟩
    obtain ⟨x, y, z⟩ := this.2 a b c
    exact ⟨by simp [x, Ne.symm hr], y, z⟩
  cases t with
  | num v =>
    simp only [postfixStep, Except.ok.injEq, Prod.mk.injEq] at h
    obtain ⟨rfl, rfl⟩ := h
    exact ⟨by simp [List.countP_append, solid]; omega, fun a b c => ⟨a, by simp [b], by simp [c]⟩⟩
  | ref v =>
    simp only [postfixStep, Except.ok.injEq, Prod.mk.injEq] at h
    obtain ⟨rfl, rfl⟩ := h
    exact ⟨by simp [List.countP_append, solid]; omega, fun a b c => ⟨a, by simp [b], by simp [c]⟩⟩
  | lpar =>
    simp only [postfixStep, Except.ok.injEq, Prod.mk.injEq] at h
    obtain ⟨rfl, rfl⟩ := h
    exact ⟨by simp [solid], fun a b c => ⟨by simp [a], b, c⟩⟩
  | rpar =>
    have := popParen_count _ _ _ _ h
    exact ⟨by simpa [solid] using this.1, this.2⟩
  | op o => exact hop (by simp) rfl h
  | other o => exact hop (by simp) rfl h

theorem loop_count (ts : List Token) : ∀ s s', postfixLoop s ts = .ok s' →
    s'.1.countP solid + s'.2.countP solid = s.1.countP solid + s.2.countP solid + ts.countP solid ∧
      (.rpar ∉ s.1 → .rpar ∉ s.2 → .lpar ∉ s.2 → .rpar ∉ s'.1 ∧ .rpar ∉ s'.2 ∧ .lpar ∉ s'.2) := by
  induction ts with
  | nil => intro s s' h; simp only [postfixLoop, Except.ok.injEq] at h; subst h; exact ⟨by simp, fun a b c => ⟨a, b, c⟩⟩
  | cons t ts ih =>
    intro s s' h
    simp only [postfixLoop, Bind.bind, Except.bind] at h
    split at h; · simp at h
    rename_i s1 hs1
    have h1 := step_count _ _ _ hs1
    have h2 := ih _ _ h
    refine ⟨?_, fun a b c => ?_⟩
    · have e : (t :: ts).countP solid = [t].countP solid + ts.countP solid := by
        rw [← List.countP_append]; rfl
      omega
    · obtain ⟨x, y, z⟩ := h1.2 a b c
      exact h2.2 x y z

/-- The postfix form is empty exactly when there is nothing but parentheses. -/
theorem postfix_nil (ts p : List Token) (h : getPostfix ts = .ok p) :
    p = [] ↔ ∀ t ∈ ts, t = .lpar ∨ t = .rpar := by
  unfold getPostfix at h
  simp only [Bind.bind, Except.bind] at h
  split at h; · simp at h
  rename_i s hs
  obtain ⟨h1, h2⟩ := loop_count _ _ _ hs
  obtain ⟨h3, h4⟩ := popRest_count _ _ _ h
  obtain ⟨x, y, z⟩ := h2 (by simp) (by simp) (by simp)
  obtain ⟨h5, h6⟩ := h4 x y z
  have hc : p.countP solid = ts.countP solid := by simpa [h3] using h1
  constructor
  · rintro rfl
    have : ts.countP solid = 0 := by simpa using hc.symm
    intro t ht
    have := List.countP_eq_zero.mp this t ht
    unfold solid at this
    by_contra hh
    simp only [not_or] at hh
    simp [hh] at this
  · intro hall
    have : ts.countP solid = 0 := by
      rw [List.countP_eq_zero]
      intro t ht
      rcases hall t ht with rfl | rfl <;> simp [solid]
    rw [this] at hc
    cases p with
    | nil => rfl
    | cons a p =>
      have := List.countP_eq_zero.mp hc a (by simp)
      unfold solid at this
      simp only [List.mem_cons, not_or] at h5 h6
      simp [Ne.symm h5.1, Ne.symm h6.1] at this

theorem loop_parens (ts : List Token) : ∀ d, Balanced d ts → (∀ t ∈ ts, t = .lpar ∨ t = .rpar) →
    postfixLoop (List.replicate d .lpar, []) ts = .ok ([], []) := by
  induction ts with
  | nil => intro d hb _; simp only [Balanced] at hb; subst hb; rfl
  | cons a ts ih =>
    intro d hb h
    have ih := fun d hb => ih d hb (fun t ht => h t (by simp [ht]))
    rcases h a (by simp) with rfl | rfl
    · exact ih (d + 1) hb
    · cases d with
      | zero => exact absurd hb (by simp [Balanced])
      | succ d => exact ih d hb

/-! ## Property theorems -/

/-- Every way of writing an expression, with as few or as many parentheses as one likes, is read back as that
expression. -/
theorem C18_parse_written (t : Tree) (ts : List Token) (h : Written 0 t ts) :
    Expr.make ts = .ok ⟨ts, t⟩ := make_written h

/-- Every expression can be written with the fewest parentheses and read back. -/
theorem C18_round_trip (t : Tree) (h : Proper t) :
    Expr.make (print 0 t) = .ok ⟨print 0 t, t⟩ := make_written (written_print t h 0)

/-- Unbalanced parentheses are rejected as an invalid expression, whatever the other tokens are. -/
theorem C18_unbalanced_rejected (ts : List Token) (h : ¬ Balanced 0 ts) :
    Expr.make ts = .error .valueError := by
  rcases postfix_cases ts with ⟨p, _, hb⟩ | he
  · exact absurd hb h
  · unfold Expr.make; rw [he]; rfl

/-- The product of two expressions is the product of their trees, whatever operators they contain. -/
theorem C18_multiply (t1 t2 : Tree) (ts1 ts2 : List Token) (h1 : Written 0 t1 ts1) (h2 : Written 0 t2 ts2) :
    ∃ e, Expr.multiply ⟨ts1, t1⟩ ⟨ts2, t2⟩ = .ok e ∧ e.tree = .node (.op .mul) t1 t2 := by
  have := make_written (.left 0 .mul t1 t2 _ _ (by decide) (by decide) (.paren _ _ _ h1) (.paren _ _ _ h2))
  refine ⟨_, Eq.trans ?_ this, rfl⟩
  simp only [Expr.multiply, List.append_assoc]

/-- The only error that is not reported as an invalid expression is the IndexError for expressions consisting
of nothing but (balanced) parentheses, such as the empty expression. -/
theorem C18_errors (ts : List Token) (e : Err) (h : Expr.make ts = .error e) :
    e = .valueError ∨ (e = .indexError ∧ ∀ t ∈ ts, t = .lpar ∨ t = .rpar) := by
  unfold Expr.make at h
  rcases postfix_cases ts with ⟨p, hp, hb⟩ | he
  · rw [hp] at h
    simp only [Bind.bind, Except.bind] at h
    by_cases hn : p = []
    · subst hn
      simp [getTree, treeLoop, Bind.bind, Except.bind] at h
      exact .inr ⟨h.symm, (postfix_nil _ _ hp).mp rfl⟩
    · unfold getTree at h
      simp only [Bind.bind, Except.bind, Pure.pure, Except.pure] at h
      rcases treeLoop_ne p [] (.inr hn) with ⟨t, st, ht⟩ | ht
      · rw [ht] at h; simp at h
      · rw [ht] at h; simp at h; exact .inl h.symm
  · rw [he] at h; simp [Bind.bind, Except.bind] at h; exact .inl h.symm

/-- Finding: an expression of nothing but balanced parentheses raises IndexError, which the caller does not turn
into a validation error. -/
theorem C18_nothing_is_index_error (ts : List Token) (hb : Balanced 0 ts)
    (h : ∀ t ∈ ts, t = .lpar ∨ t = .rpar) : Expr.make ts = .error .indexError := by
  have hp : getPostfix ts = .ok [] := by
    unfold getPostfix
    have := loop_parens ts 0 hb h
    rw [List.replicate_zero] at this
    rw [this]; rfl
  unfold Expr.make
  rw [hp]; rfl

/-- Finding: an operand that no operator uses is silently dropped; the value is that of the last operand. -/
theorem C18_unused_operand_dropped (t : Tree) (ts : List Token) (h : Written 0 t ts) (v : ℚ) :
    Expr.make ([.num v] ++ ts) = .ok ⟨[.num v] ++ ts, t⟩ := by
  obtain ⟨ops, out, h1, h2, -⟩ := loop_written h [] [.num v] trivial
  have hp : getPostfix ([.num v] ++ ts) = .ok ([.num v] ++ post t) := by
    unfold getPostfix
    simp only [List.singleton_append, postfixLoop, postfixStep, Bind.bind, Except.bind, List.nil_append]
    rw [h1]
    simp only [List.append_nil]
    rw [popRest_ops, h2]; simp
  have ht := treeLoop_post h [.leaf (.num v)] []
  rw [List.append_nil] at ht
  unfold Expr.make getTree
  rw [hp]
  simp only [Bind.bind, Except.bind, List.singleton_append, treeLoop, Token.isOperator]
  simp only [Bool.false_eq_true, if_false, ht, treeLoop]
  rfl

/-! ## Non-vacuity -/

/-- `1 - 2 - x ^ 2 ^ 3 * (4 + 5)`. -/
def sample : Tree :=
  .node (.op .sub) (.node (.op .sub) (.leaf (.num 1)) (.leaf (.num 2)))
    (.node (.op .mul)
      (.node (.op .pow) (.leaf (.ref "x")) (.node (.op .pow) (.leaf (.num 2)) (.leaf (.num 3))))
      (.node (.op .add) (.leaf (.num 4)) (.leaf (.num 5))))

example : Proper sample := by simp [sample, Proper]

example : print 0 sample = [.num 1, .op .sub, .num 2, .op .sub, .ref "x", .op .pow, .num 2, .op .pow, .num 3,
    .op .mul, .lpar, .num 4, .op .add, .num 5, .rpar] := by decide +kernel

example : Expr.make [.num 1, .op .sub, .num 2, .op .sub, .ref "x", .op .pow, .num 2, .op .pow, .num 3,
    .op .mul, .lpar, .num 4, .op .add, .num 5, .rpar] = .ok ⟨print 0 sample, sample⟩ := by decide +kernel

example : ¬ Balanced 0 [.num 1, .rpar, .op .add, .lpar] := by simp [Balanced]

example : Expr.make [.lpar, .rpar] = .error .indexError := by decide +kernel

end Verif.C18
