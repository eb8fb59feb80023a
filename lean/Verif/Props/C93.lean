import Verif.Model.ConsumerMap
import Verif.Props.C90

/-!
# C93: the energy usage model of a consumer is evaluated as written
-/

namespace Verif.C93
open Verif.Time Verif.Rates Verif.Expression Verif.Variables Verif.Inputs Verif.Lexer Verif.SystemMap Verif.Consumer
open Verif.ConsumerMap Verif.C19 Verif.C65 Verif.C90

/-! ## Specification -/

/-- The conditions of a consumer: the one in CONDITION or those in CONDITIONS. -/
def written (c : Common) : List Field :=
  match c.condition with
  | some f => [f]
  | none => c.conditions.getD []

/-- A condition that the program sees: not the number zero. -/
def Seen (c : Common) : Prop := c.condition ≠ some (.number 0)

/-- What a value of a field amounts to in one period: nothing where a condition is zero, per stream day if it was given
per calendar day, nothing where the regularity is zero. -/
def perStreamDay (rt : RateType) (a g : ℚ) (conditions : List ℚ) : ℚ :=
  if 0 ∈ conditions then 0
  else match rt with
    | .streamDay => a
    | .calendarDay => if g = 0 then 0 else a / g

section
variable {parse : List Char → Option ℚ} {fmt : ℚ → List Char}

/-! ## Conditions -/

/-- The product of the conditions, grouped to the left. -/
def productTree (t : Tree) (ts : List Tree) : Tree := ts.foldl (fun a b => .node (.op .mul) a b) t

/-- The tokens of the joined conditions. -/
def joinTokens (ts : List Token) : List (List Token) → List Token
  | [] => [.lpar] ++ ts ++ [.rpar]
  | us :: rest => [.lpar] ++ ts ++ [.rpar] ++ [.op .mul] ++ joinTokens us rest

theorem lex_join (hr : Reads parse) : ∀ (fs : List Field) (f : Field) {ts : List Token} {tss : List (List Token)},
    Says parse fmt f ts → List.Forall₂ (Says parse fmt) fs tss →
    ∃ ps, lex parse (joinText fmt (f :: fs)) = .ok ps ∧ ps.mapM classify = .ok (joinTokens ts tss) := by
  have one : ∀ p t, classify p = .ok t → [p].mapM classify = .ok [t] := by
    intro p t h; rw [List.mapM_cons, h]; rfl
  intro fs
  induction fs with
  | nil =>
    intro f ts tss hf hfs
    cases hfs
    obtain ⟨hc, ps, h1, h2⟩ := says_show hf
    have := lex_group hr (b := []) hc h1
    rw [lex_nil] at this
    refine ⟨_, this, ?_⟩
    rw [List.append_nil]
    exact mapM_append (mapM_append (one _ .lpar rfl) h2) (one _ .rpar rfl)
  | cons g fs ih =>
    intro f ts tss hf hfs
    cases hfs with
    | cons hg hfs =>
      obtain ⟨hc, ps, h1, h2⟩ := says_show hf
      obtain ⟨qs, h3, h4⟩ := ih g hg hfs
      have e : joinText fmt (f :: g :: fs) =
          '(' :: f.show fmt ++ ')' :: (' ' :: '{' :: '*' :: '}' :: ' ' :: joinText fmt (g :: fs)) := rfl
      rw [e, lex_group hr hc h1, lex_blank rfl, lex_brace hr '*' (.inl rfl), lex_blank rfl, h3]
      refine ⟨_, rfl, ?_⟩
      have h5 := mapM_append (mapM_append (mapM_append (mapM_append (one ⟨.operator, .text ['(']⟩ .lpar rfl) h2)
        (one ⟨.operator, .text [')']⟩ .rpar rfl)) (one ⟨.operator, .text ['{', '*', '}']⟩ (.op .mul) rfl)) h4
      simp only [joinTokens, List.append_assoc] at h5 ⊢
      exact h5

theorem join_written : ∀ (tss : List (List Token)) (us : List Tree) (acc : List Token) (t : Tree),
    C18.Written 8 t acc → List.Forall₂ (fun u ts => C18.Written 0 u ts) us tss →
    C18.Written 8 (productTree t us) (acc ++ (tss.map fun ts => [Token.op .mul, .lpar] ++ ts ++ [.rpar]).flatten) := by
  intro tss
  induction tss with
  | nil =>
    intro us acc t h hu
    cases hu
    simpa [productTree] using h
  | cons ts tss ih =>
    intro us acc t h hu
    cases hu with
    | cons hu hus =>
      rename_i u us
      have h1 := C18.Written.left 8 .mul t u acc _ (by decide) (by decide) h (.paren _ _ _ hu)
      have h2 := ih us _ _ h1 hus
      simp only [List.map_cons, List.flatten_cons, List.append_assoc, productTree, List.foldl_cons, List.cons_append,
        List.nil_append] at h2 ⊢
      exact h2

theorem joinTokens_eq : ∀ (tss : List (List Token)) (ts : List Token), joinTokens ts tss =
    ([.lpar] ++ ts ++ [.rpar]) ++ (tss.map fun ts => [Token.op .mul, .lpar] ++ ts ++ [.rpar]).flatten := by
  intro tss
  induction tss with
  | nil => intro ts; simp [joinTokens]
  | cons us tss ih => intro ts; simp [joinTokens, ih us]

theorem written_low : ∀ {n : Nat} {t : Tree} {ts : List Token}, C18.Written n t ts → C18.Written 0 t ts := by
  intro n t ts h
  cases h with
  | number => exact .number _ _
  | name => exact .name _ _
  | paren _ _ _ h => exact .paren _ _ _ h
  | left _ _ _ _ _ _ a b c d => exact .left _ _ _ _ _ _ a (Nat.zero_le _) c d
  | right _ _ _ _ _ _ a b c d => exact .right _ _ _ _ _ _ a (Nat.zero_le _) c d

/-- Several conditions read as their product. -/
theorem join_good (hr : Reads parse) {ev : VarMap} {f : Field} {fs : List Field} {t : Tree} {us : List Tree}
    (hf : Good parse fmt ev f t) (hfs : List.Forall₂ (Good parse fmt ev) fs us) :
    ∃ i, (Field.text (joinText fmt (f :: fs))).input parse = .ok i ∧ C18.Written 0 (productTree t us) i.tokens ∧
      Available ev.vars ev.periods.length i.tokens := by
  obtain ⟨ts, h1, h2, h3⟩ := hf
  have : ∃ tss, List.Forall₂ (Says parse fmt) fs tss ∧ List.Forall₂ (fun u ts => C18.Written 0 u ts) us tss ∧
      ∀ ts ∈ tss, Available ev.vars ev.periods.length ts := by
    clear h1 h2 h3
    induction hfs with
    | nil => exact ⟨[], .nil, .nil, by simp⟩
    | cons h _ ih =>
      obtain ⟨us, k1, k2, k3⟩ := h
      obtain ⟨tss, g1, g2, g3⟩ := ih
      refine ⟨us :: tss, .cons k1 g1, .cons k2 g2, fun x hx => ?_⟩
      rcases List.mem_cons.1 hx with rfl | hx
      · exact k3
      · exact g3 x hx
  obtain ⟨tss, g1, g2, g3⟩ := this
  obtain ⟨ps, l1, l2⟩ := lex_join hr fs f h1 g1
  have hn : parse (joinText fmt (f :: fs)) = none := by
    refine parse_paren hr ?_
    cases fs <;> simp [joinText]
  refine ⟨.text (joinTokens ts tss), ?_, ?_, ?_⟩
  · simp only [Field.input, tokensOf, Lexer.read, hn, l1, l2]
    rfl
  · show C18.Written 0 _ (joinTokens ts tss)
    rw [joinTokens_eq]
    exact written_low (join_written tss us _ t (.paren _ _ _ h2) g2)
  · intro s hs
    have hs' : Token.ref s ∈ joinTokens ts tss := hs
    rw [joinTokens_eq] at hs'
    simp only [List.mem_append, List.mem_singleton, reduceCtorEq, or_false, false_or, List.mem_flatten, List.mem_map] at hs'
    rcases hs' with hs' | ⟨l, ⟨us, hus, rfl⟩, hl⟩
    · exact h3 s hs'
    · simp at hl
      exact g3 us hus s hl

theorem product_value {pow : Fl → Fl → Fl} {ev : VarMap} {k : Nat} : ∀ {us : List Tree} {xs : List ℚ} {t : Tree} {a : ℚ},
    ValueAt pow ev t k (some a) → List.Forall₂ (fun u x => ValueAt pow ev u k (some x)) us xs →
    ∃ v, ValueAt pow ev (productTree t us) k (some v) ∧ (v = 0 ↔ a = 0 ∨ 0 ∈ xs) := by
  intro us
  induction us with
  | nil =>
    intro xs t a ha h
    cases h
    exact ⟨a, ha, by simp⟩
  | cons u us ih =>
    intro xs t a ha h
    cases h with
    | cons hu hus =>
      rename_i x xs
      obtain ⟨v, h1, h2⟩ := ih (.op .mul t u _ _ _ ha hu (.mul a x)) hus
      refine ⟨v, h1, ?_⟩
      rw [h2, mul_eq_zero]
      simp only [List.mem_cons, eq_comm (a := (0 : ℚ)) (b := x)]
      tauto

theorem truthy_of_good {ev : VarMap} {f : Field} {t : Tree} (h : Good parse fmt ev f t) (hz : f ≠ .number 0) :
    truthy f = true := by
  cases f with
  | number v =>
    have : v ≠ 0 := fun h => hz (by rw [h])
    simp [truthy, this]
  | text s =>
    cases s with
    | cons c s => simp [truthy]
    | nil =>
      exfalso
      obtain ⟨ts, h1, h2, -⟩ := h
      cases h1 with
      | text _ ps _ _ hl ht _ =>
        have := (C65_tokens (parse := parse) [] ps).2 hl
        rw [lex_nil] at this
        cases Except.ok.inj this
        cases ht
        have hne : ∀ n (t : Tree) (ts : List Token), C18.Written n t ts → ts ≠ [] := by
          intro n t ts h
          cases h <;> simp
        exact hne _ _ _ h2 rfl

/-- **C93**: the conditions of a consumer, whether one or several, hold in a period exactly when none of them is zero
there. -/
theorem C93_conditions (hr : Reads parse) (pow : Fl → Fl → Fl) {ev : VarMap} {c : Common} (hs : Seen c)
    {ts : List Tree} (hg : List.Forall₂ (Good parse fmt ev) (written c) ts) :
    ∃ cond tc, c.input parse fmt = .ok cond ∧ GoodCondition ev cond tc ∧
      ∀ k xs, List.Forall₂ (fun t x => ValueAt pow ev t k (some x)) ts xs →
        ∃ v : ℚ, ConditionAt pow ev tc k (some v) ∧ (v = 0 ↔ 0 ∈ xs) := by
  unfold written at hg
  unfold Common.input Common.field
  cases h1 : c.condition with
  | some f =>
    rw [h1] at hg
    simp only at hg ⊢
    cases hg with
    | cons hf hn =>
      cases hn
      rename_i t
      have ht : truthy f = true := truthy_of_good hf (by rintro rfl; exact hs h1)
      obtain ⟨i, hi, hw, ha⟩ := good_input hf
      refine ⟨some i, some t, ?_, ⟨hw, ha⟩, ?_⟩
      · simp [ht, hi, Except.map]
      · intro k xs hx
        cases hx with
        | cons hx hn =>
          cases hn
          rename_i x
          exact ⟨x, hx, by simp [eq_comm]⟩
  | none =>
    rw [h1] at hg
    simp only at hg ⊢
    cases h2 : c.conditions with
    | none =>
      rw [h2] at hg
      cases hg
      refine ⟨none, none, rfl, trivial, fun k xs hx => ?_⟩
      cases hx
      exact ⟨1, rfl, by simp⟩
    | some fs =>
      rw [h2] at hg
      cases fs with
      | nil =>
        cases hg
        refine ⟨none, none, rfl, trivial, fun k xs hx => ?_⟩
        cases hx
        exact ⟨1, rfl, by simp⟩
      | cons f fs =>
        cases hg with
        | cons hf hfs =>
          rename_i t us
          obtain ⟨i, hi, hw, ha⟩ := join_good hr hf hfs
          refine ⟨some i, some (productTree t us), ?_, ⟨hw, ha⟩, ?_⟩
          · simp [Common.field.viaList, hi, Except.map]
          · intro k xs hx
            cases hx with
            | cons hx hxs =>
              rename_i x xs
              obtain ⟨v, v1, v2⟩ := product_value hx hxs
              exact ⟨v, v1, v2.trans (by simp [eq_comm])⟩

/-! ## Values -/

/-- The values of a field that reads as a tree. -/
theorem series_value (pow : Fl → Fl → Fl) (ev : VarMap) (reg : Reg) {regs : List Fl} (hreg : reg.values pow = .ok regs)
    (hlen : regs.length = ev.periods.length) {cond : Option ExprInput} {tc : Option Tree} (rt : RateType)
    (hc : GoodCondition ev cond tc) {f : Field} {t : Tree} (hf : Good parse fmt ev f t) :
    ∃ s vs, seriesOf parse ev cond f = .ok s ∧ streamDayValues pow s rt reg = .ok vs ∧ vs.length = ev.periods.length ∧
      ∀ k (hk : k < vs.length) a c g, ValueAt pow ev t k (some a) → ConditionAt pow ev tc k c →
        (rt = .calendarDay → regs[k]? = some (some g)) →
        vs[k] = some (if c = some 0 then 0 else match rt with
          | .streamDay => a
          | .calendarDay => if g = 0 then 0 else a / g) := by
  obtain ⟨i, hi, hw, ha⟩ := good_input hf
  obtain ⟨hm, raw, r1, r2, r3⟩ := evaluated_written pow ev hw ha
  have hset : i.setup = .ok ⟨i.tokens, t⟩ := hm
  have key : ∃ s ms, seriesOf parse ev cond f = .ok s ∧ s.masked pow = .ok ms ∧ ms.length = ev.periods.length ∧
      ∀ k (hk : k < ms.length) a c, ValueAt pow ev t k (some a) → ConditionAt pow ev tc k c →
        ms[k] = some (if c = some 0 then 0 else a) := by
    cases cond with
    | none =>
      cases tc with
      | some t => exact hc.elim
      | none =>
        refine ⟨⟨⟨i.tokens, t⟩, ev, none⟩, raw, ?_, ?_, r2, ?_⟩
        · simp only [seriesOf, hi, Bind.bind, Except.bind, TSE.make, hset, pure, Except.pure]
        · simp only [TSE.masked, TSE.evaluated, r1, maskApply, Bind.bind, Except.bind]
        · intro k hk a c hx hcond
          have hc' : c = some 1 := hcond
          rw [r3 k hk _ hx, hc']
          simp
    | some ci =>
      cases tc with
      | none => exact hc.elim
      | some tcond =>
        obtain ⟨hcw, hca⟩ := hc
        obtain ⟨hm', ms, m1, m2, m3⟩ := evaluated_written pow ev hcw hca
        have hset' : ci.setup = .ok ⟨ci.tokens, tcond⟩ := hm'
        refine ⟨⟨⟨i.tokens, t⟩, ev, some ⟨ci.tokens, tcond⟩⟩,
          List.zipWith (fun c x => if c ≠ some 0 then x else some 0) ms raw, ?_, ?_, by simp [r2, m2], ?_⟩
        · simp only [seriesOf, hi, Bind.bind, Except.bind, TSE.make, hset, hset', pure, Except.pure]
        · simp only [TSE.masked, TSE.evaluated, r1, m1, maskApply, Bind.bind, Except.bind]
          rw [npOp_same _ _ _ (by omega)]
        · intro k hk a c hx hcond
          have hk1 : k < raw.length := by simp at hk; omega
          have hk3 : k < ms.length := by simp at hk; omega
          rw [List.getElem_zipWith, r3 k hk1 _ hx, m3 k hk3 _ hcond]
          by_cases h : c = some 0 <;> simp [h]
  obtain ⟨s, ms, s1, s2, s3, s4⟩ := key
  cases rt with
  | streamDay =>
    refine ⟨s, ms, s1, ?_, s3, fun k hk a c g hx hcond _ => s4 k hk a c hx hcond⟩
    simp only [streamDayValues, s2, Bind.bind, Except.bind, pure, Except.pure]
  | calendarDay =>
    refine ⟨s, List.zipWith streamDayValue ms regs, s1, ?_, by simp [s3, hlen], ?_⟩
    · simp only [streamDayValues, s2, hreg, Bind.bind, Except.bind, Rates.toStreamDay]
      rw [npOp_same _ _ _ (by omega)]
    · intro k hk a c g hx hcond hg
      have hk1 : k < ms.length := by simp at hk; omega
      have hk2 : k < regs.length := by simp at hk; omega
      rw [List.getElem_zipWith, s4 k hk1 a c hx hcond]
      have : regs[k] = some g := by
        have := hg rfl
        rw [List.getElem?_eq_getElem hk2] at this
        exact Option.some.inj this
      rw [this]
      unfold streamDayValue
      by_cases h0 : g = 0
      · simp [h0]
      · by_cases hc0 : c = some 0
        · simp [h0, hc0, Fl.div]
        · simp [h0, hc0, Fl.div]

/-- The loss factor of a consumer in period `k`; zero when there is none. -/
def LossAt (parse : List Char → Option ℚ) (fmt : ℚ → List Char) (pow : Fl → Fl → Fl) (ev : VarMap) (loss : Option Field)
    (k : Nat) (l : ℚ) : Prop :=
  match loss with
  | none => l = 0
  | some f => ∃ t, Good parse fmt ev f t ∧ ValueAt pow ev t k (some l)

/-- The loss factor can be read. -/
def GoodLoss (parse : List Char → Option ℚ) (fmt : ℚ → List Char) (ev : VarMap) (loss : Option Field) : Prop :=
  ∀ f, loss = some f → ∃ t, Good parse fmt ev f t

theorem good_unique {ev : VarMap} {f : Field} {t u : Tree} (h1 : Good parse fmt ev f t) (h2 : Good parse fmt ev f u) :
    t = u := by
  obtain ⟨i, hi, hw, -⟩ := good_input h1
  obtain ⟨j, hj, hv, -⟩ := good_input h2
  rw [hi] at hj
  cases Except.ok.inj hj
  have a := C18.C18_parse_written _ _ hw
  have b := C18.C18_parse_written _ _ hv
  rw [a] at b
  cases Except.ok.inj b
  rfl

theorem loss_apply {fs usage : List Fl} (h : fs.length = usage.length) :
    ∃ us, lossApply (some fs) usage.length usage = .ok us ∧ us.length = usage.length ∧
      ∀ k (hk : k < us.length) l u, fs[k]? = some (some l) → usage[k]? = some (some u) → l ≠ 1 →
        us[k] = some (u / (1 - l)) := by
  unfold lossApply
  have hv : lossValues (some fs) usage.length = fs := by
    cases fs with
    | nil => rw [← h]; rfl
    | cons x xs => rfl
  simp only [hv]
  by_cases hn : npAny fs = true
  · rw [hn]
    simp only [Bool.not_true, Bool.false_eq_true, if_false]
    rw [npOp_same _ _ _ (by simp [h])]
    refine ⟨_, rfl, by simp [h], fun k hk l u hl hu h1 => ?_⟩
    have k1 : k < usage.length := by simp at hk; omega
    rw [List.getElem?_eq_getElem k1] at hu
    rw [List.getElem?_eq_getElem (by omega : k < fs.length)] at hl
    rw [List.getElem_zipWith, List.getElem_map, Option.some.inj hl, Option.some.inj hu]
    have : (1 : ℚ) - l ≠ 0 := sub_ne_zero.2 (Ne.symm h1)
    simp [Fl.div, Fl.sub, this]
  · rw [Bool.not_eq_true] at hn
    rw [hn]
    simp only [Bool.not_false, if_true]
    refine ⟨_, rfl, rfl, fun k hk l u hl hu h1 => ?_⟩
    unfold npAny at hn
    rw [List.any_eq_false] at hn
    have hl0 : l = 0 := by
      have := hn (some l) (List.mem_of_getElem? hl)
      simpa using this
    rw [List.getElem?_eq_getElem hk] at hu
    rw [Option.some.inj hu, hl0]
    simp

/-- What the loss factor does to the result of a direct consumer. -/
theorem direct_result (pow : Fl → Fl → Fl) (ev : VarMap) (kind : UsageType) {loss : Option Field} {vs : List Fl}
    (hv : vs.length = ev.periods.length) (hl : GoodLoss parse fmt ev loss) :
    ∃ lo, lossOf parse ev loss = .ok lo ∧
      ∃ r us, (Mapped.mk (.direct kind vs) lo).direct pow ev = .ok r ∧ r.energyUsage = .ok us ∧ r.usageUnit = kind.unit ∧
        r.periods = ev.periods ∧ us.length = ev.periods.length ∧ ∀ k (hk : k < us.length) l u,
          LossAt parse fmt pow ev loss k l → vs[k]? = some (some u) → l ≠ 1 → us[k] = some (u / (1 - l)) := by
  cases loss with
  | none =>
    refine ⟨none, rfl, ⟨ev.periods, vs, kind.unit, match kind with | .power => some vs | .fuel => none,
      match kind with | .power => true | .fuel => false, none⟩, vs, ?_, rfl, rfl, rfl, hv, ?_⟩
    · cases kind <;> rfl
    · intro k hk l u hl hu _
      have : l = 0 := hl
      rw [List.getElem?_eq_getElem hk] at hu
      rw [Option.some.inj hu, this]
      simp
  | some f =>
    obtain ⟨t, ht⟩ := hl f rfl
    obtain ⟨i, hi, hw, ha⟩ := good_input ht
    obtain ⟨hm, fs, r1, r2, r3⟩ := evaluated_written pow ev hw ha
    have hset : i.setup = .ok ⟨i.tokens, t⟩ := hm
    obtain ⟨us, u1, u2, u3⟩ := loss_apply (fs := fs) (usage := vs) (by omega)
    refine ⟨some ⟨⟨i.tokens, t⟩, ev, none⟩, ?_, ⟨ev.periods, vs, kind.unit, match kind with | .power => some vs | .fuel => none,
      match kind with | .power => true | .fuel => false, some fs⟩, us, ?_, u1, rfl, rfl, by omega, ?_⟩
    · simp only [lossOf, hi, Bind.bind, Except.bind, TSE.make, hset, pure, Except.pure]
    · simp only [Mapped.direct, TSE.evaluated, r1, Except.map, Bind.bind, Except.bind]
      cases kind <;> rfl
    · intro k hk l u hla hu h1
      obtain ⟨t', ht', hval⟩ := hla
      cases good_unique ht ht'
      refine u3 k hk l u ?_ hu h1
      rw [List.getElem?_eq_getElem (by omega : k < fs.length), r3 k (by omega) _ hval]

/-! ## Direct consumers -/

/-- **C93**: a direct consumer of electricity reports, in every period, the value of LOAD, nothing where a condition is zero,
per stream day, increased by the loss factor. -/
theorem C93_electricity (hr : Reads parse) (pow : Fl → Fl → Fl) (ev : VarMap) (reg : Reg) {regs : List Fl}
    (hreg : reg.values pow = .ok regs) (hlen : regs.length = ev.periods.length) (lib : Library) {c : Common}
    (hs : Seen c) {ts : List Tree} (hg : List.Forall₂ (Good parse fmt ev) (written c) ts)
    (hl : GoodLoss parse fmt ev c.loss) (rt : Option RateType) {f : Field} {t : Tree} (hf : Good parse fmt ev f t) :
    ∃ m r us, mapUsage parse fmt pow ev reg lib .electricity c (.directElectricity rt f) = .ok m ∧
      m.direct pow ev = .ok r ∧ r.energyUsage = .ok us ∧ r.usageUnit = .MEGA_WATT ∧ r.periods = ev.periods ∧
      us.length = ev.periods.length ∧
      ∀ k (hk : k < us.length) a xs g l, ValueAt pow ev t k (some a) →
        List.Forall₂ (fun t x => ValueAt pow ev t k (some x)) ts xs → regs[k]? = some (some g) →
        LossAt parse fmt pow ev c.loss k l → l ≠ 1 →
        us[k] = some (perStreamDay (rt.getD .streamDay) a g xs / (1 - l)) := by
  obtain ⟨cond, tc, c1, c2, c3⟩ := C93_conditions hr pow hs hg
  obtain ⟨s, vs, s1, s2, s3, s4⟩ := series_value pow ev reg hreg hlen (rt.getD .streamDay) c2 hf
  obtain ⟨lo, l1, r, us, u1, u2, u3, u4, u5, u6⟩ := direct_result (parse := parse) (fmt := fmt) pow ev .power s3 hl
  refine ⟨_, r, us, ?_, u1, u2, u3, u4, u5, ?_⟩
  · simp only [mapUsage, mapDirect, l1, c1, s1, s2, expectKind, Bind.bind, Except.bind, pure, Except.pure, if_true]
    rfl
  · intro k hk a xs g l ha hx hgk hlk h1
    refine u6 k hk l _ hlk ?_ h1
    obtain ⟨v, v1, v2⟩ := c3 k xs hx
    rw [List.getElem?_eq_getElem (by omega : k < vs.length), s4 k (by omega) a _ g ha v1 fun _ => hgk]
    unfold perStreamDay
    simp only [Option.some.injEq, v2]

/-- **C93**: the same for a direct consumer of fuel, which is refused if it would use a negative amount. -/
theorem C93_fuel (hr : Reads parse) (pow : Fl → Fl → Fl) (ev : VarMap) (reg : Reg) {regs : List Fl}
    (hreg : reg.values pow = .ok regs) (hlen : regs.length = ev.periods.length) (lib : Library) {c : Common}
    (hs : Seen c) {ts : List Tree} (hg : List.Forall₂ (Good parse fmt ev) (written c) ts)
    (hl : GoodLoss parse fmt ev c.loss) (rt : Option RateType) {f : Field} {t : Tree} (hf : Good parse fmt ev f t) :
    ∃ vs : List Fl, vs.length = ev.periods.length ∧
      (∀ k (hk : k < vs.length) a xs g, ValueAt pow ev t k (some a) →
        List.Forall₂ (fun t x => ValueAt pow ev t k (some x)) ts xs → regs[k]? = some (some g) →
        vs[k] = some (perStreamDay (rt.getD .streamDay) a g xs)) ∧
      ((∃ (k : Nat) (x : ℚ), vs[k]? = some (some x) ∧ x < 0) →
        mapUsage parse fmt pow ev reg lib .fuel c (.directFuel rt f) = .error .validation) ∧
      ((∀ (k : Nat) (x : ℚ), vs[k]? = some (some x) → 0 ≤ x) →
        ∃ m r us, mapUsage parse fmt pow ev reg lib .fuel c (.directFuel rt f) = .ok m ∧
          m.direct pow ev = .ok r ∧ r.energyUsage = .ok us ∧ r.usageUnit = .STANDARD_CUBIC_METER_PER_DAY ∧
          r.periods = ev.periods ∧ us.length = ev.periods.length ∧
          ∀ k (hk : k < us.length) l u, LossAt parse fmt pow ev c.loss k l → vs[k]? = some (some u) → l ≠ 1 →
            us[k] = some (u / (1 - l))) := by
  obtain ⟨cond, tc, c1, c2, c3⟩ := C93_conditions hr pow hs hg
  obtain ⟨s, vs, s1, s2, s3, s4⟩ := series_value pow ev reg hreg hlen (rt.getD .streamDay) c2 hf
  obtain ⟨lo, l1, r, us, u1, u2, u3, u4, u5, u6⟩ := direct_result (parse := parse) (fmt := fmt) pow ev .fuel s3 hl
  refine ⟨vs, s3, ?_, ?_, ?_⟩
  · intro k hk a xs g ha hx hgk
    obtain ⟨v, v1, v2⟩ := c3 k xs hx
    rw [s4 k hk a _ g ha v1 fun _ => hgk]
    unfold perStreamDay
    simp only [Option.some.injEq, v2]
  · rintro ⟨k, x, hk, hx⟩
    have : vs.any isNegative = true := List.any_eq_true.2 ⟨some x, List.mem_of_getElem? hk, by simp [isNegative, hx]⟩
    simp only [mapUsage, mapDirect, l1, c1, s1, s2, flowRate, this, expectKind, Bind.bind, Except.bind, if_true, report]
  · intro hpos
    have : vs.any isNegative = false := by
      rw [List.any_eq_false]
      intro x hx
      obtain ⟨k, hk⟩ := List.mem_iff_getElem?.1 hx
      cases x with
      | none => simp [isNegative]
      | some x => simp [isNegative, hpos k x hk]
    refine ⟨_, r, us, ?_, u1, u2, u3, u4, u5, u6⟩
    simp only [mapUsage, mapDirect, l1, c1, s1, s2, flowRate, this, expectKind, Bind.bind, Except.bind, pure, Except.pure,
      if_true, Bool.false_eq_true, if_false]
    rfl

/-! ## Compressors and pumps: accepted exactly when the values make sense -/

/-- A field that may be missing and its values. -/
def Given (parse : List Char → Option ℚ) (pow : Fl → Fl → Fl) (ev : VarMap) (f : Option Field) (vs : Option (List Fl)) :
    Prop :=
  match f, vs with
  | none, none => True
  | some f, some vs => Values parse pow ev f vs
  | _, _ => False

/-- The pressures of a running compressor are fine: possible, or not negative if only one is given. -/
def Fine (sp dp : Option (List Fl)) (k : Nat) : Prop :=
  match sp, dp with
  | some s, some d => Possible s d k
  | some s, none => ∀ x : ℚ, s[k]? = some (some x) → 0 ≤ x
  | none, some d => ∀ x : ℚ, d[k]? = some (some x) → 0 ≤ x
  | none, none => True

theorem report_ok {α : Type} {x : Except Err α} {a : α} : report x = .ok a ↔ x = .ok a := by
  cases x with
  | ok b => rfl
  | error e => cases e <;> simp [report]

theorem expect_ok {a b : Kind} : expectKind a b = .ok () ↔ b = a := by
  unfold expectKind
  by_cases h : a = b
  · rw [if_pos h]; simp [h]
  · rw [if_neg h]
    constructor
    · intro h'; cases h'
    · intro h'; exact absurd h'.symm h

theorem masked {vs : List Fl} {mask : List Bool} : (∀ p ∈ vs.zip mask, p.2 = true → isNegative p.1 = false) ↔
    ∀ k : Nat, mask[k]? = some true → ∀ x : ℚ, vs[k]? = some (some x) → 0 ≤ x := by
  constructor
  · intro h k hm x hx
    have : (some x, true) ∈ vs.zip mask := by
      refine List.mem_iff_getElem?.2 ⟨k, ?_⟩
      rw [List.getElem?_zip_eq_some]
      exact ⟨hx, hm⟩
    have := h _ this rfl
    simpa [isNegative] using this
  · rintro h ⟨v, m⟩ hp (rfl : m = true)
    obtain ⟨k, hk⟩ := List.mem_iff_getElem?.1 hp
    rw [List.getElem?_zip_eq_some] at hk
    cases v with
    | none => rfl
    | some x => simpa [isNegative] using h k hk.2 x hk.1

theorem pressure_iff {pow : Fl → Fl → Fl} {ev : VarMap} {f : Field} {r regs vs : List Fl} :
    pressureOf parse pow ev f (some (pressureMask r regs)) = .ok vs ↔ Values parse pow ev f vs ∧
      ∀ k, Running r regs k → ∀ x : ℚ, vs[k]? = some (some x) → 0 ≤ x := by
  rw [pressure_ok, Option.getD_some, masked]
  simp only [mask_true]

theorem optional_iff {pow : Fl → Fl → Fl} {ev : VarMap} {f : Option Field} {r regs : List Fl} {o : Option (List Fl)} :
    optionalPressure parse pow ev f (pressureMask r regs) = .ok o ↔ Given parse pow ev f o ∧
      ∀ vs, o = some vs → ∀ k, Running r regs k → ∀ x : ℚ, vs[k]? = some (some x) → 0 ≤ x := by
  cases f with
  | none =>
    cases o with
    | none => simp [optionalPressure, Given]
    | some vs => simp [optionalPressure, Given]
  | some f =>
    cases o with
    | none =>
      simp only [optionalPressure, Given, false_and, iff_false]
      intro h
      cases hp : pressureOf parse pow ev f (some (pressureMask r regs)) <;> rw [hp] at h <;> cases h
    | some vs =>
      simp only [optionalPressure, Given, Option.some.injEq, forall_eq']
      rw [← pressure_iff]
      cases hp : pressureOf parse pow ev f (some (pressureMask r regs)) with
      | error e => simp [Except.map]
      | ok ws => simp [Except.map]

theorem mask_length {r regs : List Fl} {n : Nat} (h1 : r.length = n) (h2 : regs.length = n) :
    (pressureMask r regs).length = n := by
  unfold pressureMask
  simp [h1, h2]

theorem running_lt {r regs : List Fl} {k n : Nat} (h : Running r regs k) (hl : r.length = n) : k < n := by
  obtain ⟨x, g, hx, -, -⟩ := h
  have := (List.getElem?_eq_some_iff.1 hx).1
  omega

theorem possible_nonneg {sp dp : List Fl} {k : Nat} (h : Possible sp dp k) :
    (∀ x : ℚ, sp[k]? = some (some x) → 0 ≤ x) ∧ ∀ x : ℚ, dp[k]? = some (some x) → 0 ≤ x := by
  obtain ⟨p, d, hp, hd, h1, h2⟩ := h
  constructor
  · intro x hx
    rw [hp] at hx
    cases hx
    exact h1.le
  · intro x hx
    rw [hd] at hx
    cases hx
    exact (h1.trans_le h2).le

/-- **C93**: the model of a compressor is accepted exactly when its fields have values, its rate is not negative, its
pressures are possible wherever it runs, and the model it refers to uses the energy that is expected; a train needs both
pressures and a fluid, a sampled compressor does not. -/
theorem C93_compressor (pow : Fl → Fl → Fl) {ev : VarMap} (hfull : Full ev) {reg : Reg} {regs : List Fl}
    (hreg : reg.values pow = .ok regs) (hlen : regs.length = ev.periods.length) (lib : Library) (consumes : Kind)
    (c : Common) (name : String) (rate : Field) (suction discharge : Option Field) (m : Mapped) :
    mapUsage parse fmt pow ev reg lib consumes c (.compressor name rate suction discharge) = .ok m ↔
      ∃ cond r sp dp made, c.input parse fmt = .ok cond ∧ lossOf parse ev c.loss = .ok m.loss ∧
        rateOf parse pow ev reg cond rate = .ok r ∧ Given parse pow ev suction sp ∧ Given parse pow ev discharge dp ∧
        (∀ k, Running r regs k → Fine sp dp k) ∧
        lib.compressor name (some (r, sp, dp)) = .ok made ∧ made.kind = consumes ∧
        ((made.sampled = true ∧ m.target = .sampled r sp dp) ∨
          (made.sampled = false ∧ made.fluid = true ∧ ∃ s d, sp = some s ∧ dp = some d ∧
            m.target = .train [r] s d none)) := by
  unfold mapUsage
  rw [report_ok]
  dsimp only
  unfold mapCompressor
  constructor
  · intro h
    obtain ⟨lo, hlo, h⟩ := bind_ok h
    obtain ⟨cond, hc, h⟩ := bind_ok h
    obtain ⟨r, hr, h⟩ := bind_ok h
    obtain ⟨regs', hg, h⟩ := bind_ok h
    rw [hreg] at hg
    cases Except.ok.inj hg
    obtain ⟨sp, hsp, h⟩ := bind_ok h
    obtain ⟨dp, hdp, h⟩ := bind_ok h
    obtain ⟨s1, s2⟩ := optional_iff.1 hsp
    obtain ⟨d1, d2⟩ := optional_iff.1 hdp
    have hrl := rate_length pow hfull hreg hlen hr
    have hml := mask_length hrl hlen
    have hfine : (∀ k, Running r regs k → Fine sp dp k) ∧ (do
        let m ← lib.compressor name (some (r, sp, dp))
        expectKind consumes m.kind
        if m.sampled then return (⟨.sampled r sp dp, lo⟩ : Mapped)
        else
          match sp, dp with
          | some s, some d => if m.fluid then return ⟨.train [r] s d none, lo⟩ else .error .assertion
          | _, _ => .error .assertion) = .ok m := by
      cases sp with
      | none =>
        cases dp with
        | none => exact ⟨fun _ _ => trivial, h⟩
        | some d => exact ⟨fun k hk => d2 d rfl k hk, h⟩
      | some s =>
        cases dp with
        | none => exact ⟨fun k hk => s2 s rfl k hk, h⟩
        | some d =>
          obtain ⟨_, hv, h⟩ := bind_ok h
          have hsl : s.length = ev.periods.length := values_length (f := suction.get (by
            cases suction with | none => exact s1.elim | some f => rfl)) hfull (by
            cases suction with | none => exact s1.elim | some f => exact s1)
          have hdl : d.length = ev.periods.length := values_length (f := discharge.get (by
            cases discharge with | none => exact d1.elim | some f => rfl)) hfull (by
            cases discharge with | none => exact d1.elim | some f => exact d1)
          exact ⟨fun k hk => (validate_ok hml hsl hdl).1 hv k (running_lt hk hrl) ((mask_true k).2 hk), h⟩
    obtain ⟨hfine, h⟩ := hfine
    obtain ⟨made, hmade, h⟩ := bind_ok h
    obtain ⟨_, hk, h⟩ := bind_ok h
    refine ⟨cond, r, sp, dp, made, hc, ?_, hr, s1, d1, hfine, hmade, expect_ok.1 hk, ?_⟩ <;>
    cases hsam : made.sampled <;> rw [hsam] at h
    · cases sp with
      | none => cases h
      | some s =>
        cases dp with
        | none => cases h
        | some d =>
          cases hfl : made.fluid <;> simp only [hfl, Bool.false_eq_true, if_false, if_true] at h <;> cases h
          exact hlo
    · cases h
      exact hlo
    · cases sp with
      | none => cases h
      | some s =>
        cases dp with
        | none => cases h
        | some d =>
          cases hfl : made.fluid <;> simp only [hfl, Bool.false_eq_true, if_false, if_true] at h <;> cases h
          exact .inr ⟨rfl, rfl, s, d, rfl, rfl, rfl⟩
    · cases h
      exact .inl ⟨rfl, rfl⟩
  · rintro ⟨cond, r, sp, dp, made, hc, hlo, hr, s1, d1, hfine, hmade, hk, h⟩
    have hrl := rate_length pow hfull hreg hlen hr
    have hml := mask_length hrl hlen
    have hsp : optionalPressure parse pow ev suction (pressureMask r regs) = .ok sp := by
      refine optional_iff.2 ⟨s1, ?_⟩
      rintro s rfl k hk
      have := hfine k hk
      cases dp with
      | none => exact this
      | some d => exact (possible_nonneg this).1
    have hdp : optionalPressure parse pow ev discharge (pressureMask r regs) = .ok dp := by
      refine optional_iff.2 ⟨d1, ?_⟩
      rintro d rfl k hk
      have := hfine k hk
      cases sp with
      | none => exact this
      | some s => exact (possible_nonneg this).2
    have hv : (match sp, dp with
        | some s, some d => validatePressures (pressureMask r regs) s d
        | _, _ => .ok ()) = Except.ok () := by
      cases sp with
      | none => rfl
      | some s =>
        cases dp with
        | none => rfl
        | some d =>
          have hsl : s.length = ev.periods.length := values_length (f := suction.get (by
            cases suction with | none => exact s1.elim | some f => rfl)) hfull (by
            cases suction with | none => exact s1.elim | some f => exact s1)
          have hdl : d.length = ev.periods.length := values_length (f := discharge.get (by
            cases discharge with | none => exact d1.elim | some f => rfl)) hfull (by
            cases discharge with | none => exact d1.elim | some f => exact d1)
          exact (validate_ok hml hsl hdl).2 fun k _ hk => hfine k ((mask_true k).1 hk)
    obtain ⟨target, loss⟩ := m
    dsimp only at hlo h
    simp only [hlo, hc, hr, hreg, hsp, hdp, hmade, hk, expect_ok.2, Bind.bind, Except.bind]
    rcases h with ⟨h1, rfl⟩ | ⟨h1, h2, s, d, rfl, rfl, rfl⟩
    · cases sp <;> cases dp <;> simp_all [pure, Except.pure]
    · simp_all [pure, Except.pure]

/-- **C93**: the model of a pump with a rate and both pressures is accepted exactly when its fields have values, its rate
is not negative and its pressures are possible wherever it runs. -/
theorem C93_pump (pow : Fl → Fl → Fl) {ev : VarMap} (hfull : Full ev) {reg : Reg} {regs : List Fl}
    (hreg : reg.values pow = .ok regs) (hlen : regs.length = ev.periods.length) (lib : Library) (consumes : Kind)
    (c : Common) (name : String) (rate suction discharge density : Field) (m : Mapped) :
    mapUsage parse fmt pow ev reg lib consumes c (.pump name (some rate) (some suction) (some discharge) density) = .ok m ↔
      ∃ cond r sp dp rho, lib.pump name = .ok () ∧ consumes = .electricity ∧ c.input parse fmt = .ok cond ∧
        lossOf parse ev c.loss = .ok m.loss ∧ rateOf parse pow ev reg cond rate = .ok r ∧
        Values parse pow ev suction sp ∧ Values parse pow ev discharge dp ∧ Values parse pow ev density rho ∧
        (∀ k, Running r regs k → Possible sp dp k) ∧ m.target = .pump r sp dp rho := by
  unfold mapUsage
  rw [report_ok]
  dsimp only
  unfold mapPump
  constructor
  · intro h
    obtain ⟨_, hlib, h⟩ := bind_ok h
    obtain ⟨_, hk, h⟩ := bind_ok h
    obtain ⟨lo, hlo, h⟩ := bind_ok h
    obtain ⟨cond, hc, h⟩ := bind_ok h
    obtain ⟨r, hr, h⟩ := bind_ok h
    obtain ⟨rho, hrho, h⟩ := bind_ok h
    obtain ⟨regs', hg, h⟩ := bind_ok h
    rw [hreg] at hg
    cases Except.ok.inj hg
    obtain ⟨sp, hsp, h⟩ := bind_ok h
    obtain ⟨dp, hdp, h⟩ := bind_ok h
    obtain ⟨_, hv, h⟩ := bind_ok h
    cases h
    simp only [pumpRate] at hr
    simp only [neededPressure] at hsp hdp
    have hrl := rate_length pow hfull hreg hlen hr
    obtain ⟨s1, -⟩ := pressure_iff.1 hsp
    obtain ⟨d1, -⟩ := pressure_iff.1 hdp
    refine ⟨cond, r, sp, dp, rho, hlib, (expect_ok.1 hk).symm, hc, hlo, hr, s1, d1, density_ok.1 hrho, fun k hk => ?_, rfl⟩
    exact (validate_ok (mask_length hrl hlen) (values_length hfull s1) (values_length hfull d1)).1 hv k
      (running_lt hk hrl) ((mask_true k).2 hk)
  · rintro ⟨cond, r, sp, dp, rho, hlib, hk, hc, hlo, hr, s1, d1, hrho, hpos, htar⟩
    obtain ⟨target, loss⟩ := m
    dsimp only at hlo htar
    subst htar hk
    have hrl := rate_length pow hfull hreg hlen hr
    have hsp := pressure_iff.2 ⟨s1, fun k hk => (possible_nonneg (hpos k hk)).1⟩
    have hdp := pressure_iff.2 ⟨d1, fun k hk => (possible_nonneg (hpos k hk)).2⟩
    have hv := (validate_ok (mask_length hrl hlen) (values_length hfull s1) (values_length hfull d1)).2
      fun k _ hk => hpos k ((mask_true k).1 hk)
    simp only [hlib, expect_ok.2, hlo, hc, pumpRate, hr, density_ok.2 hrho, hreg, neededPressure, hsp, hdp, hv, Bind.bind,
      Except.bind, pure, Except.pure]

/-! ## Trains with several streams -/

/-- Period `k` of a train: it runs when the streams together do. -/
def RunningTrain (rates : List (List Fl)) (regs : List Fl) (k : Nat) : Prop :=
  ∃ xs : List ℚ, ∃ g : ℚ, List.Forall₂ (fun (r : List Fl) x => r[k]? = some (some x)) rates xs ∧
    regs[k]? = some (some g) ∧ 0 < xs.sum * g

/-- The pressures of a running train are possible: they do not fall on the way. -/
def PossibleTrain (sp dp : List Fl) (ip : Option (List Fl)) (k : Nat) : Prop :=
  match ip with
  | none => Possible sp dp k
  | some ip => ∃ p q d : ℚ, sp[k]? = some (some p) ∧ ip[k]? = some (some q) ∧ dp[k]? = some (some d) ∧ 0 < p ∧ p ≤ q ∧ q ≤ d

theorem sum_value : ∀ {rates : List (List Fl)} (_ : rates ≠ []) (k : Nat) (x : ℚ),
    (sumRates rates)[k]? = some (some x) ↔
      ∃ xs : List ℚ, List.Forall₂ (fun (r : List Fl) x => r[k]? = some (some x)) rates xs ∧ x = xs.sum
  | [r], _, k, x => by
    simp only [sumRates]
    constructor
    · intro h
      exact ⟨[x], .cons h .nil, by simp⟩
    · rintro ⟨xs, h, rfl⟩
      cases h with
      | cons h t =>
        cases t
        simpa using h
  | r :: s :: rs, _, k, x => by
    have ih := fun y => sum_value (rates := s :: rs) (by simp) k y
    simp only [sumRates]
    rw [List.getElem?_zipWith]
    constructor
    · intro h
      cases h1 : r[k]? with
      | none => rw [h1] at h; cases h
      | some a =>
        rw [h1] at h
        cases h2 : (sumRates (s :: rs))[k]? with
        | none => rw [h2] at h; cases h
        | some b =>
          rw [h2] at h
          simp only [Option.some.injEq] at h
          cases a with
          | none => simp [Fl.add] at h
          | some a =>
            cases b with
            | none => simp [Fl.add] at h
            | some b =>
              obtain ⟨xs, hx, rfl⟩ := (ih b).1 h2
              have e : a + xs.sum = x := by simpa [Fl.add] using h
              exact ⟨a :: xs, .cons h1 hx, by rw [List.sum_cons, e]⟩
    · rintro ⟨xs, h, rfl⟩
      cases h with
      | cons h t =>
        rename_i a xs
        have := (ih xs.sum).2 ⟨xs, t, rfl⟩
        rw [h, this]
        simp [Fl.add]

theorem running_train {rates : List (List Fl)} (hne : rates ≠ []) {regs : List Fl} {k : Nat} :
    Running (sumRates rates) regs k ↔ RunningTrain rates regs k := by
  unfold Running RunningTrain
  constructor
  · rintro ⟨r, g, hr, hg, h⟩
    obtain ⟨xs, hx, rfl⟩ := (sum_value hne k r).1 hr
    exact ⟨xs, g, hx, hg, h⟩
  · rintro ⟨xs, g, hx, hg, h⟩
    exact ⟨xs.sum, g, (sum_value hne k _).2 ⟨xs, hx, rfl⟩, hg, h⟩

theorem sum_length {n : Nat} : ∀ {rates : List (List Fl)} (_ : rates ≠ []), (∀ r ∈ rates, r.length = n) →
    (sumRates rates).length = n
  | [r], _, h => h r (by simp)
  | r :: s :: rs, _, h => by
    simp only [sumRates, List.length_zipWith]
    rw [h r (by simp), sum_length (rates := s :: rs) (by simp) fun t ht => h t (by simp at ht ⊢; tauto)]
    simp

theorem check_three {m : Bool} {sp ip dp : Fl} : checkThree m sp ip dp = .ok () ↔
    (m = true → ∃ p q d : ℚ, sp = some p ∧ ip = some q ∧ dp = some d ∧ 0 < p ∧ p ≤ q ∧ q ≤ d) := by
  cases m with
  | false => simp [checkThree]
  | true =>
    simp only [checkThree, if_true, forall_const]
    constructor
    · intro h
      by_cases h1 : flLe sp (some 0) = true
      · rw [if_pos h1] at h; cases h
      rw [if_neg h1] at h
      by_cases h2 : flLe dp (some 0) = true
      · rw [if_pos h2] at h; cases h
      rw [if_neg h2] at h
      by_cases h3 : flLe ip (some 0) = true
      · rw [if_pos h3] at h; cases h
      rw [if_neg h3] at h
      by_cases h4 : (!(flLe sp ip && flLe ip dp)) = true
      · rw [if_pos h4] at h; cases h
      cases sp <;> cases ip <;> cases dp <;> simp_all [flLe]
    · rintro ⟨p, q, d, rfl, rfl, rfl, h1, h2, h3⟩
      have a : ¬ p ≤ 0 := not_le.2 h1
      have b : ¬ q ≤ 0 := not_le.2 (h1.trans_le h2)
      have c : ¬ d ≤ 0 := not_le.2 (h1.trans_le (h2.trans h3))
      simp [flLe, a, b, c, h2, h3]

theorem validate_three {mask : List Bool} {sp ip dp : List Fl} {n : Nat} (hm : mask.length = n) (hs : sp.length = n)
    (hi : ip.length = n) (hd : dp.length = n) : validateThree mask sp ip dp = .ok () ↔
      ∀ k, k < n → mask[k]? = some true → PossibleTrain sp dp (some ip) k := by
  unfold validateThree
  rw [forM_ok]
  simp only [List.mem_range, hs]
  refine forall_congr' fun k => forall_congr' fun hk => ?_
  rw [List.getElem?_eq_getElem (by omega : k < mask.length), List.getElem?_eq_getElem (by omega : k < sp.length),
    List.getElem?_eq_getElem (by omega : k < ip.length), List.getElem?_eq_getElem (by omega : k < dp.length)]
  dsimp only
  rw [check_three]
  unfold PossibleTrain
  simp only [Option.some.injEq, List.getElem?_eq_getElem (by omega : k < sp.length),
    List.getElem?_eq_getElem (by omega : k < ip.length), List.getElem?_eq_getElem (by omega : k < dp.length)]

theorem possible_train_nonneg {sp dp : List Fl} {ip : Option (List Fl)} {k : Nat} (h : PossibleTrain sp dp ip k) :
    (∀ x : ℚ, sp[k]? = some (some x) → 0 ≤ x) ∧ (∀ x : ℚ, dp[k]? = some (some x) → 0 ≤ x) ∧
      ∀ q, ip = some q → ∀ x : ℚ, q[k]? = some (some x) → 0 ≤ x := by
  cases ip with
  | none => exact ⟨(possible_nonneg h).1, (possible_nonneg h).2, fun q hq => by cases hq⟩
  | some ip =>
    obtain ⟨p, q, d, hp, hq, hd, h1, h2, h3⟩ := h
    refine ⟨fun x hx => ?_, fun x hx => ?_, fun q' hq' x hx => ?_⟩
    · rw [hp] at hx; cases hx; exact h1.le
    · rw [hd] at hx; cases hx; exact (h1.trans_le (h2.trans h3)).le
    · cases hq'
      rw [hq] at hx; cases hx; exact (h1.trans_le h2).le

theorem given_length {pow : Fl → Fl → Fl} {ev : VarMap} (hfull : Full ev) {f : Option Field} {vs : List Fl}
    (h : Given parse pow ev f (some vs)) : vs.length = ev.periods.length := by
  cases f with
  | none => exact h.elim
  | some f => exact values_length hfull h

/-- **C93**: the model of a train with several streams is accepted exactly when its fields have values, no rate is
negative, and wherever the streams together run the pressures are possible. -/
theorem C93_streams (pow : Fl → Fl → Fl) {ev : VarMap} (hfull : Full ev) {reg : Reg} {regs : List Fl}
    (hreg : reg.values pow = .ok regs) (hlen : regs.length = ev.periods.length) (lib : Library) (consumes : Kind)
    (c : Common) (name : String) {rates : List Field} (hne : rates ≠ []) (suction discharge : Field)
    (interstage : Option Field) (m : Mapped) :
    mapUsage parse fmt pow ev reg lib consumes c (.streams name rates suction discharge interstage) = .ok m ↔
      ∃ cond rs sp dp ip made, lib.compressor name none = .ok made ∧ made.kind = consumes ∧ made.fluid = true ∧
        made.sampled = false ∧ c.input parse fmt = .ok cond ∧ lossOf parse ev c.loss = .ok m.loss ∧
        List.Forall₂ (fun f r => rateOf parse pow ev reg cond f = .ok r) rates rs ∧
        Values parse pow ev suction sp ∧ Values parse pow ev discharge dp ∧ Given parse pow ev interstage ip ∧
        (∀ k, RunningTrain rs regs k → PossibleTrain sp dp ip k) ∧ m.target = .train rs sp dp ip := by
  unfold mapUsage
  rw [report_ok]
  dsimp only
  unfold mapStreams
  have len : ∀ {cond rs}, List.Forall₂ (fun f r => rateOf parse pow ev reg cond f = .ok r) rates rs →
      rs ≠ [] ∧ ∀ r ∈ rs, r.length = ev.periods.length := by
    intro cond rs h
    constructor
    · rintro rfl
      cases h
      exact hne rfl
    · intro r hr
      obtain ⟨i, hi, rfl⟩ := List.getElem_of_mem hr
      exact rate_length pow hfull hreg hlen (h.get (by rw [h.length_eq]; exact hi) hi)
  constructor
  · intro h
    obtain ⟨made, hmade, h⟩ := bind_ok h
    obtain ⟨_, hk, h⟩ := bind_ok h
    obtain ⟨lo, hlo, h⟩ := bind_ok h
    obtain ⟨cond, hc, h⟩ := bind_ok h
    obtain ⟨rs, hr, h⟩ := bind_ok h
    obtain ⟨regs', hg, h⟩ := bind_ok h
    rw [hreg] at hg
    cases Except.ok.inj hg
    obtain ⟨sp, hsp, h⟩ := bind_ok h
    obtain ⟨dp, hdp, h⟩ := bind_ok h
    obtain ⟨ip, hip, h⟩ := bind_ok h
    rw [C90.mapM_ok] at hr
    obtain ⟨l1, l2⟩ := len hr
    have hrl := sum_length l1 l2
    have hml := mask_length hrl hlen
    obtain ⟨s1, -⟩ := pressure_iff.1 hsp
    obtain ⟨d1, -⟩ := pressure_iff.1 hdp
    obtain ⟨i1, -⟩ := optional_iff.1 hip
    have key : (∀ k, RunningTrain rs regs k → PossibleTrain sp dp ip k) ∧
        (if made.fluid ∧ ¬ made.sampled then pure (⟨.train rs sp dp ip, lo⟩ : Mapped) else .error .assertion :
          Except Err Mapped) = .ok m := by
      cases ip with
      | none =>
        obtain ⟨_, hv, h⟩ := bind_ok h
        refine ⟨fun k hk => ?_, h⟩
        rw [← running_train l1] at hk
        exact (validate_ok hml (values_length hfull s1) (values_length hfull d1)).1 hv k (running_lt hk hrl)
          ((mask_true k).2 hk)
      | some ip =>
        obtain ⟨_, hv, h⟩ := bind_ok h
        refine ⟨fun k hk => ?_, h⟩
        rw [← running_train l1] at hk
        exact (validate_three hml (values_length hfull s1) (given_length hfull i1) (values_length hfull d1)).1 hv k
          (running_lt hk hrl) ((mask_true k).2 hk)
    obtain ⟨hpos, h⟩ := key
    by_cases hfs : made.fluid = true ∧ ¬ made.sampled = true
    · rw [if_pos hfs] at h
      cases h
      exact ⟨cond, rs, sp, dp, ip, made, hmade, expect_ok.1 hk, hfs.1, by simpa using hfs.2, hc, hlo, hr, s1, d1, i1, hpos,
        rfl⟩
    · rw [if_neg hfs] at h
      cases h
  · rintro ⟨cond, rs, sp, dp, ip, made, hmade, hk, hfl, hsa, hc, hlo, hr, s1, d1, i1, hpos, htar⟩
    obtain ⟨target, loss⟩ := m
    dsimp only at hlo htar
    subst htar
    obtain ⟨l1, l2⟩ := len hr
    have hrl := sum_length l1 l2
    have hml := mask_length hrl hlen
    have hpos' : ∀ k, Running (sumRates rs) regs k → PossibleTrain sp dp ip k :=
      fun k hk => hpos k ((running_train l1).1 hk)
    have hsp := pressure_iff.2 ⟨s1, fun k hk => (possible_train_nonneg (hpos' k hk)).1⟩
    have hdp := pressure_iff.2 ⟨d1, fun k hk => (possible_train_nonneg (hpos' k hk)).2.1⟩
    have hip := optional_iff.2 ⟨i1, fun q hq k hk => (possible_train_nonneg (hpos' k hk)).2.2 q hq⟩
    have hv : (match ip with
        | none => validatePressures (pressureMask (sumRates rs) regs) sp dp
        | some ip => validateThree (pressureMask (sumRates rs) regs) sp ip dp) = .ok () := by
      cases ip with
      | none =>
        exact (validate_ok hml (values_length hfull s1) (values_length hfull d1)).2
          fun k _ hk => hpos' k ((mask_true k).1 hk)
      | some ip =>
        exact (validate_three hml (values_length hfull s1) (given_length hfull i1) (values_length hfull d1)).2
          fun k _ hk => hpos' k ((mask_true k).1 hk)
    simp only [hmade, expect_ok.2 hk, hlo, hc, C90.mapM_ok.2 hr, hreg, hsp, hdp, hip, Bind.bind, Except.bind]
    cases ip <;> dsimp only at hv <;> simp [hv, hfl, hsa, pure, Except.pure]

/-! ## Tables -/

theorem variable_value (pow : Fl → Fl → Fl) (ev : VarMap) (reg : Reg) {regs : List Fl} (hreg : reg.values pow = .ok regs)
    (hlen : regs.length = ev.periods.length) {cond : Option ExprInput} {tc : Option Tree} (hc : GoodCondition ev cond tc)
    {v : String × Field} {t : Tree} (hf : Good parse fmt ev v.2 t) :
    ∃ vs, variableOf parse pow ev reg cond v = .ok (v.1, vs) ∧ vs.length = ev.periods.length ∧
      ∀ k (hk : k < vs.length) a x g, ValueAt pow ev t k (some a) → ConditionAt pow ev tc k x →
        regs[k]? = some (some g) →
        vs[k] = some (if x = some 0 then 0 else match (if v.1.toLower = "rate" then RateType.calendarDay else .streamDay) with
          | .streamDay => a
          | .calendarDay => if g = 0 then 0 else a / g) := by
  obtain ⟨s, vs, s1, s2, s3, s4⟩ := series_value pow ev reg hreg hlen
    (if v.1.toLower = "rate" then .calendarDay else .streamDay) hc hf
  refine ⟨vs, ?_, s3, fun k hk a x g h1 h2 h3 => s4 k hk a x g h1 h2 fun _ => h3⟩
  simp only [variableOf, s1, s2, Bind.bind, Except.bind, pure, Except.pure]

/-- **C93**: the model of a table that uses the energy that is expected is accepted when its fields can be read; each
variable has the value it is given, nothing where a condition is zero, and only the one called rate is taken to be per
calendar day. -/
theorem C93_table (hr : Reads parse) (pow : Fl → Fl → Fl) (ev : VarMap) (reg : Reg) {regs : List Fl}
    (hreg : reg.values pow = .ok regs) (hlen : regs.length = ev.periods.length) (lib : Library) {c : Common}
    (hs : Seen c) {ts : List Tree} (hg : List.Forall₂ (Good parse fmt ev) (written c) ts)
    (hl : GoodLoss parse fmt ev c.loss) {name : String} {headers : List String} {data : List (List ℚ)}
    (hlib : lib.table name = .ok (headers, data)) {consumes : Kind} (hk : "POWER" ∈ headers ↔ consumes = .electricity)
    {inputs : List (String × Field)} {us : List Tree}
    (hi : List.Forall₂ (fun v t => Good parse fmt ev v.2 t) inputs us) :
    ∃ m vs, mapUsage parse fmt pow ev reg lib consumes c (.tabular name inputs) = .ok m ∧
      m.target = .table headers data vs ∧ lossOf parse ev c.loss = .ok m.loss ∧
      vs.map Prod.fst = inputs.map Prod.fst ∧
      ∀ (i : Nat) (x : String × Field) (t : Tree) (y : String × List Fl), inputs[i]? = some x → us[i]? = some t →
        vs[i]? = some y → y.2.length = ev.periods.length ∧
        ∀ k (hk : k < y.2.length) a xs g, ValueAt pow ev t k (some a) →
          List.Forall₂ (fun t x => ValueAt pow ev t k (some x)) ts xs → regs[k]? = some (some g) →
          y.2[k] = some (perStreamDay (if x.1.toLower = "rate" then .calendarDay else .streamDay) a g xs) := by
  obtain ⟨cond, tc, c1, c2, c3⟩ := C93_conditions hr pow hs hg
  obtain ⟨lo, l1, -⟩ := direct_result (parse := parse) (fmt := fmt) pow ev .power
    (vs := List.replicate ev.periods.length none) (by simp) hl
  have hkind : expectKind consumes (kindOf (usageType headers)) = .ok () := by
    rw [expect_ok]
    unfold usageType
    by_cases hp : "POWER" ∈ headers
    · rw [if_pos hp, hk.1 hp]; rfl
    · rw [if_neg hp]
      cases consumes with
      | electricity => exact absurd (hk.2 rfl) hp
      | fuel => rfl
  have key : ∃ vs, inputs.mapM (variableOf parse pow ev reg cond) = .ok vs ∧ vs.map Prod.fst = inputs.map Prod.fst ∧
      ∀ (i : Nat) (x : String × Field) (t : Tree) (y : String × List Fl), inputs[i]? = some x → us[i]? = some t →
        vs[i]? = some y → y.2.length = ev.periods.length ∧
        ∀ k (hk : k < y.2.length) a xs g, ValueAt pow ev t k (some a) →
          List.Forall₂ (fun t x => ValueAt pow ev t k (some x)) ts xs → regs[k]? = some (some g) →
          y.2[k] = some (perStreamDay (if x.1.toLower = "rate" then .calendarDay else .streamDay) a g xs) := by
    clear hkind
    induction hi with
    | nil => exact ⟨[], rfl, rfl, by simp⟩
    | @cons v t inputs us hv _ ih =>
      obtain ⟨vs, h1, h2, h3⟩ := ih
      obtain ⟨ws, w1, w2, w3⟩ := variable_value pow ev reg hreg hlen c2 hv
      refine ⟨(v.1, ws) :: vs, ?_, by simp [h2], ?_⟩
      · rw [List.mapM_cons, w1, h1]; rfl
      · intro i x t' y hx ht hy
        cases i with
        | succ i => exact h3 i x t' y (by simpa using hx) (by simpa using ht) (by simpa using hy)
        | zero =>
          simp only [List.getElem?_cons_zero, Option.some.injEq] at hx ht hy
          subst hx ht hy
          refine ⟨w2, fun k hk a xs g ha hxs hgk => ?_⟩
          obtain ⟨z, z1, z2⟩ := c3 k xs hxs
          have := w3 k hk a _ g ha z1 hgk
          dsimp only
          rw [this]
          unfold perStreamDay
          simp only [Option.some.injEq, z2]
  obtain ⟨vs, v1, v2, v3⟩ := key
  refine ⟨⟨.table headers data vs, lo⟩, vs, ?_, rfl, l1, v2, v3⟩
  simp only [mapUsage, mapTabular, hlib, hkind, l1, c1, v1, Bind.bind, Except.bind, pure, Except.pure, report]

/-- **C93**: a consumer with CONDITION and CONDITIONS is refused when the file is read, any other is not, and then no
condition that is written is left out. -/
theorem C93_refused (c : Common) : (c.check = .error .valueError ↔ c.condition ≠ none ∧ c.conditions ≠ none) ∧
    (c.check = .ok () ↔ c.condition = none ∨ c.conditions = none) ∧
    (c.check = .ok () → written c = c.condition.toList ++ c.conditions.getD []) := by
  unfold Common.check written
  cases c.condition <;> cases c.conditions <;> simp

example : Common.check { condition := some (.number 1), conditions := some [] } = .error .valueError ∧
    Common.check { condition := none, conditions := some [.number 1, .number 2] } = .ok () := by decide +kernel

/-! ## The wrong kind of energy -/

/-- The energy a model uses. -/
inductive Uses (lib : Library) : Usage → Kind → Prop
  | fuel (rt f) : Uses lib (.directFuel rt f) .fuel
  | load (rt f) : Uses lib (.directElectricity rt f) .electricity
  | power {name headers data} (inputs) : lib.table name = .ok (headers, data) → "POWER" ∈ headers →
      Uses lib (.tabular name inputs) .electricity
  | noPower {name headers data} (inputs) : lib.table name = .ok (headers, data) → "POWER" ∉ headers →
      Uses lib (.tabular name inputs) .fuel
  | pump (name r s d rho) : Uses lib (.pump name r s d rho) .electricity
  | train {name made} (rs s d i) : lib.compressor name none = .ok made → Uses lib (.streams name rs s d i) made.kind
  | compressor (name) {made kind} (r s d) : (∀ x made, lib.compressor name x = .ok made → made.kind = kind) →
      lib.compressor name none = .ok made → Uses lib (.compressor name r s d) kind

/-- **C93**: a consumer never gets a model that uses another kind of energy than expected of it. -/
theorem C93_kind (pow : Fl → Fl → Fl) {ev : VarMap} {reg : Reg} (lib : Library) (consumes : Kind) (c : Common) (u : Usage)
    {kind : Kind} (hu : Uses lib u kind) (hne : consumes ≠ kind) (m : Mapped) :
    mapUsage parse fmt pow ev reg lib consumes c u ≠ .ok m := by
  intro h
  unfold mapUsage at h
  rw [report_ok] at h
  cases hu with
  | fuel rt f =>
    dsimp only [mapDirect] at h
    obtain ⟨_, _, h⟩ := bind_ok h
    obtain ⟨_, h', _⟩ := bind_ok h
    exact hne (expect_ok.1 h').symm
  | load rt f =>
    dsimp only [mapDirect] at h
    obtain ⟨_, _, h⟩ := bind_ok h
    obtain ⟨_, h', _⟩ := bind_ok h
    exact hne (expect_ok.1 h').symm
  | power inputs ht hp =>
    dsimp only [mapTabular] at h
    obtain ⟨_, h0, h⟩ := bind_ok h
    rw [ht] at h0
    cases Except.ok.inj h0
    obtain ⟨_, h', _⟩ := bind_ok h
    have := expect_ok.1 h'
    rw [usageType, if_pos hp] at this
    exact hne this.symm
  | noPower inputs ht hp =>
    dsimp only [mapTabular] at h
    obtain ⟨_, h0, h⟩ := bind_ok h
    rw [ht] at h0
    cases Except.ok.inj h0
    obtain ⟨_, h', _⟩ := bind_ok h
    have := expect_ok.1 h'
    rw [usageType, if_neg hp] at this
    exact hne this.symm
  | pump name r s d rho =>
    dsimp only [mapPump] at h
    obtain ⟨_, _, h⟩ := bind_ok h
    obtain ⟨_, h', _⟩ := bind_ok h
    exact hne (expect_ok.1 h').symm
  | train rs s d i ht =>
    dsimp only [mapStreams] at h
    obtain ⟨_, h0, h⟩ := bind_ok h
    rw [ht] at h0
    cases Except.ok.inj h0
    obtain ⟨_, h', _⟩ := bind_ok h
    exact hne (expect_ok.1 h').symm
  | compressor name r s d hk _ =>
    dsimp only [mapCompressor] at h
    obtain ⟨_, _, h⟩ := bind_ok h
    obtain ⟨_, _, h⟩ := bind_ok h
    obtain ⟨r', _, h⟩ := bind_ok h
    obtain ⟨_, _, h⟩ := bind_ok h
    obtain ⟨sp, _, h⟩ := bind_ok h
    obtain ⟨dp, _, h⟩ := bind_ok h
    have h : ∃ made, lib.compressor name (some (r', sp, dp)) = .ok made ∧ expectKind consumes made.kind = .ok () := by
      cases sp with
      | none =>
        obtain ⟨_, _, h⟩ := bind_ok h
        obtain ⟨made, h1, h⟩ := bind_ok h
        obtain ⟨_, h2, _⟩ := bind_ok h
        exact ⟨made, h1, h2⟩
      | some s =>
        cases dp with
        | none =>
          obtain ⟨_, _, h⟩ := bind_ok h
          obtain ⟨made, h1, h⟩ := bind_ok h
          obtain ⟨_, h2, _⟩ := bind_ok h
          exact ⟨made, h1, h2⟩
        | some d =>
          obtain ⟨_, _, h⟩ := bind_ok h
          obtain ⟨made, h1, h⟩ := bind_ok h
          obtain ⟨_, h2, _⟩ := bind_ok h
          exact ⟨made, h1, h2⟩
    obtain ⟨made, h1, h2⟩ := h
    exact hne ((expect_ok.1 h2).symm.trans (hk _ _ h1))

end

/-! ## Examples and deviations -/

/-- A library with a table, a pump, a train and a sampled compressor. -/
def sampleLib : Library where
  table := fun _ => .ok (["RATE", "POWER"], [[0, 100], [0, 10]])
  pump := fun _ => .ok ()
  compressor := fun s _ => if s = "sampled" then .ok ⟨.electricity, true, false⟩ else .ok ⟨.electricity, false, true⟩

/-- Two conditions: there is gas, and always. -/
def sampleCommon : Common :=
  { conditions := some [.text "SIM;GAS > 0".toList, .number 1], loss := some (.text "1 {/} 5".toList) }

/-- The target of a model in the sample. -/
def target (c : Common) (u : Usage) : Except Err Target :=
  (mapUsage parseQ fmtQ (fun _ _ => none) sampleEv sampleReg sampleLib .electricity c u).map (·.target)

example : (mapUsage parseQ fmtQ (fun _ _ => none) sampleEv sampleReg sampleLib .electricity sampleCommon
    (.directElectricity none (.number 4)) >>= fun m => m.direct (fun _ _ => none) sampleEv >>= fun r => r.energyUsage) =
    .ok [some 5, some 0] := by decide +kernel

example : Seen sampleCommon := by simp [Seen, sampleCommon]

example : ∃ ts, List.Forall₂ (Good parseQ fmtQ sampleEv) (written sampleCommon) ts := by
  refine ⟨[.node (.op .gt) (.leaf (.ref "SIM;GAS")) (.leaf (.num 0)), .leaf (.num 1)], .cons ?_ (.cons ?_ .nil)⟩
  · refine ⟨[.ref "SIM;GAS", .op .gt, .num 0], ?_, ?_, ?_⟩
    · refine .text _ [⟨.reference, .text "SIM;GAS".toList⟩, ⟨.operator, .text ">".toList⟩, ⟨.numeric, .num 0⟩] _
        (by decide) ?_ ?_ ?_
      · rw [← C65_tokens]; decide +kernel
      · exact .cons (.name "SIM;GAS") (.cons (.op ">" .gt (by decide)) (.cons (.number 0) .nil))
      · intro v h
        have : parseQ "SIM;GAS > 0".toList = none := by decide +kernel
        rw [this] at h; cases h
    · exact .left 0 .gt _ _ [.ref "SIM;GAS"] [.num 0] (by decide) (by decide) (.name _ _) (.number _ _)
    · intro s hs
      simp at hs
      subst hs
      exact ⟨_, rfl, rfl⟩
  · refine ⟨[.num 1], .number 1 ?_ ?_, .number _ _, ?_⟩
    · exact .plain _ (by decide +kernel) (by decide +kernel)
    · decide +kernel
    · intro s hs
      simp at hs

example : target {} (.tabular "t" [("Rate", .text "SIM;GAS".toList), ("x", .number 3)]) =
    .ok (.table ["RATE", "POWER"] [[0, 100], [0, 10]] [("Rate", [some 600, some 0]), ("x", [some 3, some 3])]) := by
  decide +kernel

example : target {} (.pump "p" (some (.text "SIM;GAS".toList)) (some (.text "SIM;PS".toList)) (some (.number 20)) (.number 1000)) =
    .ok (.pump [some 600, some 0] [some 10, some 0] [some 20, some 20] [some 1000, some 1000]) := by decide +kernel

example : target {} (.compressor "train" (.text "SIM;GAS".toList) (some (.text "SIM;PS".toList)) (some (.number 20))) =
    .ok (.train [[some 600, some 0]] [some 10, some 0] [some 20, some 20] none) := by decide +kernel

example : target {} (.compressor "sampled" (.text "SIM;GAS".toList) none (some (.number 20))) =
    .ok (.sampled [some 600, some 0] none (some [some 20, some 20])) := by decide +kernel

example : target {} (.streams "train" [.text "SIM;GAS".toList, .number 0] (.text "SIM;PS".toList) (.number 20)
    (some (.number 15))) =
    .ok (.train [[some 600, some 0], [some 0, some 0]] [some 10, some 0] [some 20, some 20] (some [some 15, some 15])) := by
  decide +kernel

example : target {} (.streams "train" [.text "SIM;GAS".toList, .number 0] (.text "SIM;PS".toList) (.number 20)
    (some (.number 5))) = .error .validation := by decide +kernel

example : target {} (.directFuel none (.number 4)) = .error .validation := by decide +kernel

/-- **Deviation.** A pump without a pressure, which the file allows, ends in a TypeError that is not reported as an error
in the file. -/
theorem C93_pump_no_pressure (parse : List Char → Option ℚ) (fmt : ℚ → List Char) (pow : Fl → Fl → Fl) (ev : VarMap)
    (reg : Reg) {regs : List Fl} (hreg : reg.values pow = .ok regs) (lib : Library) {name : String}
    (hlib : lib.pump name = .ok ()) (c : Common) {cond : Option ExprInput} (hc : c.input parse fmt = .ok cond) {lo : Option TSE}
    (hl : lossOf parse ev c.loss = .ok lo) {rate density : Field} {r rho : List Fl}
    (hr : rateOf parse pow ev reg cond rate = .ok r) (hd : densityOf parse pow ev density = .ok rho) (d : Option Field) :
    mapUsage parse fmt pow ev reg lib .electricity c (.pump name (some rate) none d density) = .error .typeError := by
  simp only [mapUsage, mapPump, hlib, expect_ok.2, hl, hc, pumpRate, hr, hd, hreg, neededPressure, Bind.bind, Except.bind,
    report]

/-- **Deviation.** A pump without a rate is refused if it has no condition, but accepted with rates that are no numbers if
it has one. -/
theorem C93_pump_no_rate :
    target {} (.pump "p" none (some (.number 10)) (some (.number 20)) (.number 1000)) = .error .validation ∧
    target { condition := some (.number 1) } (.pump "p" none (some (.number 10)) (some (.number 20)) (.number 1000)) =
      .ok (.pump [none, none] [some 10, some 10] [some 20, some 20] [some 1000, some 1000]) := by decide +kernel

/-- **Deviation.** A train without a pressure, which the file allows, ends in an AssertionError. -/
theorem C93_train_no_pressure (parse : List Char → Option ℚ) (fmt : ℚ → List Char) (pow : Fl → Fl → Fl) (ev : VarMap)
    (reg : Reg) {regs : List Fl} (hreg : reg.values pow = .ok regs) (lib : Library) {name : String} {fluid : Bool}
    {kind : Kind} (hlib : ∀ x, lib.compressor name x = .ok ⟨kind, false, fluid⟩) (c : Common) {cond : Option ExprInput}
    (hc : c.input parse fmt = .ok cond) {lo : Option TSE} (hl : lossOf parse ev c.loss = .ok lo) {rate : Field} {r : List Fl}
    (hr : rateOf parse pow ev reg cond rate = .ok r) :
    mapUsage parse fmt pow ev reg lib kind c (.compressor name rate none none) = .error .assertion := by
  simp only [mapUsage, mapCompressor, hlib, expect_ok.2, hl, hc, hr, hreg, optionalPressure, Bind.bind, Except.bind,
    report, Bool.false_eq_true, if_false]

/-- **Deviation.** The number zero as condition means always, though the text "0" means never. -/
theorem C93_zero_condition :
    target { condition := some (.number 0) } (.directElectricity none (.number 4)) = .ok (.direct .power [some 4, some 4]) ∧
    target { condition := some (.text "0".toList) } (.directElectricity none (.number 4)) =
      .ok (.direct .power [some 0, some 0]) := by decide +kernel

/-- **Deviation.** A comment in a condition does no harm in CONDITION, but in CONDITIONS it hides the ones after it, and
the file is refused. -/
theorem C93_comment :
    target { condition := some (.text "SIM;GAS > 0 # gas".toList) } (.directElectricity none (.number 4)) =
      .ok (.direct .power [some 4, some 0]) ∧
    target { conditions := some [.text "SIM;GAS > 0 # gas".toList, .number 1] } (.directElectricity none (.number 4)) =
      .error .validation := by decide +kernel

end Verif.C93
