import Verif.Model.ConvertExpr
import Verif.Props.C114
import Verif.Props.C24
import Mathlib.Data.List.Forall2

/-!
# C120 Expressions over time
-/

namespace Verif.C120
open Verif.Rules Verif.ConvertExpr Verif.C114
open Verif.Time (dictSet)

variable {χ ε : Type}

/-! ## Specification -/

/-- The expression in effect at an instant: that of the latest date not after it. -/
def InEffect (c : Env χ ε) (es : List (ℤ × Raw χ ε)) (t : ℤ) (o : Out ε) : Prop :=
  ∃ e ∈ es, e.1 ≤ t ∧ (∀ e' ∈ es, e'.1 ≤ t → e'.1 ≤ e.1) ∧ convert c e.2 = .ok o

/-- A converted dict has the expression in a period that contains the instant. -/
def Holds (d : List (OutKey × Out ε)) (t : ℤ) (o : Out ε) : Prop :=
  ∃ a b, (OutKey.span (.moment a) (.moment b), o) ∈ d ∧ a ≤ t ∧ t < b

/-- Dates with expressions, as a dict. -/
def dated (es : List (ℤ × Raw χ ε)) : Raw χ ε := .dict (es.map fun e => (.moment e.1, e.2))

/-- Periods with expressions, as a dict. -/
def periodic (es : List ((ℤ × ℤ) × Raw χ ε)) : Raw χ ε := .dict (es.map fun e => (.period e.1.1 e.1.2, e.2))

/-- The texts of periods with expressions (`Period.__str__`), as a dict. -/
def written (text : ℤ → List Char) (es : List ((ℤ × ℤ) × Raw χ ε)) : Raw χ ε :=
  .dict (es.map fun e => (.text (text e.1.1 ++ ';' :: text e.1.2), e.2))

/-! ## Building -/

theorem build_spec (c : Env χ ε) : ∀ (ks : List OutKey) (l : List (Key × Raw χ ε)) (acc : List (OutKey × Out ε)),
    ks.length = l.length → (acc.map (·.1) ++ ks).Nodup → ∀ d, build c (ks.map .ok) l acc = .ok d ↔
      ∃ os, List.Forall₂ (fun e o => convert c e.2 = .ok o) l os ∧ d = acc ++ ks.zip os
  | [], [], acc, _, _, d => by
    rw [List.map_nil, build]
    · constructor
      · intro h
        exact ⟨[], .nil, by rw [← Except.ok.inj h]; simp⟩
      · rintro ⟨os, -, rfl⟩
        simp
    all_goals (intros; simp_all)
  | k :: ks, (k', v) :: l, acc, hl, hn, d => by
    rw [List.map_cons, build]
    have hfresh : k ∉ acc.map (·.1) := fun h => (List.nodup_append.mp hn).2.2 k h k (by simp) rfl
    cases hv : convert c v with
    | error e =>
      constructor
      · intro h; cases h
      · rintro ⟨os, h, -⟩
        cases h with
        | cons h _ => rw [hv] at h; cases h
    | ok o =>
      dsimp only
      rw [C24.dictSet_fresh k o acc hfresh,
        build_spec c ks l (acc ++ [(k, o)]) (by simpa using hl) (by simpa using hn) d]
      constructor
      · rintro ⟨os, h, rfl⟩
        exact ⟨o :: os, .cons hv h, by simp⟩
      · rintro ⟨os, h, rfl⟩
        cases h with
        | @cons _ o' _ os h1 h2 =>
          have h1 : convert c v = .ok o' := h1
          rw [hv] at h1
          cases h1
          exact ⟨os, h2, by simp⟩

theorem convert_dict (c : Env χ ε) (l : List (Key × Raw χ ε)) (ks : List OutKey)
    (ht : OverTime c.reading (l.map (·.1))) (hk : newKeys c (l.map (·.1)) = ks.map .ok) (hlen : ks.length = l.length)
    (hn : ks.Nodup) (o : Out ε) : convert c (.dict l) = .ok o ↔
      ∃ os, List.Forall₂ (fun e o => convert c e.2 = .ok o) l os ∧ o = .dict (ks.zip os) := by
  rw [convert, ((C114_recognised c.reading _).1).mpr ht]
  dsimp only
  rw [hk]
  have B := build_spec c ks l [] hlen (by simpa using hn)
  constructor
  · intro h
    cases hb : build c (ks.map .ok) l [] with
    | error e => rw [hb] at h; cases h
    | ok d =>
      rw [hb] at h
      obtain ⟨os, F, rfl⟩ := (B d).mp hb
      exact ⟨os, F, by rw [← Except.ok.inj h]; rfl⟩
  · rintro ⟨os, F, rfl⟩
    rw [(B (ks.zip os)).mpr ⟨os, F, rfl⟩]

theorem ex_forall (c : Env χ ε) (l : List (Key × Raw χ ε)) :
    (∃ os, List.Forall₂ (fun e o => convert c e.2 = .ok o) l os) ↔ ∀ e ∈ l, ∃ o, convert c e.2 = .ok o := by
  induction l with
  | nil => exact ⟨(fun _ e h => by cases h), fun _ => ⟨[], .nil⟩⟩
  | cons e l ih =>
    constructor
    · rintro ⟨os, h⟩
      cases h with
      | cons h1 h2 =>
        intro e' he'
        rcases List.mem_cons.mp he' with rfl | h
        · exact ⟨_, h1⟩
        · exact ih.mp ⟨_, h2⟩ e' h
    · intro h
      obtain ⟨o, ho⟩ := h e List.mem_cons_self
      obtain ⟨os, hos⟩ := ih.mpr fun e' he' => h e' (List.mem_cons_of_mem _ he')
      exact ⟨o :: os, .cons ho hos⟩

/-! ## Dates -/

theorem spans_length (top : Stamp) : ∀ l : List Stamp, (spans top l).length = l.length
  | [] => rfl
  | [_] => rfl
  | a :: b :: l => by rw [spans, List.length_cons, spans_length top (b :: l)]; rfl

theorem spans_start (top : Stamp) : ∀ (l : List Stamp) (k : OutKey), k ∈ spans top l → ∃ a b, k = .span a b ∧ a ∈ l
  | [], k, h => by cases h
  | [a], k, h => by
    rw [spans, List.mem_singleton] at h
    exact ⟨a, top, h, by simp⟩
  | a :: b :: l, k, h => by
    rw [spans] at h
    rcases List.mem_cons.mp h with rfl | h
    · exact ⟨a, b, rfl, by simp⟩
    · obtain ⟨x, y, e, hx⟩ := spans_start top (b :: l) k h
      exact ⟨x, y, e, List.mem_cons_of_mem _ hx⟩

theorem spans_nodup (top : Stamp) : ∀ l : List Stamp, l.Nodup → (spans top l).Nodup
  | [], _ => .nil
  | [a], _ => by simp [spans]
  | a :: b :: l, h => by
    rw [spans, List.nodup_cons]
    refine ⟨?_, spans_nodup top (b :: l) (List.nodup_cons.mp h).2⟩
    intro hm
    obtain ⟨x, y, e, hx⟩ := spans_start top (b :: l) _ hm
    cases e
    exact (List.nodup_cons.mp h).1 hx

theorem spans_effect (c : Env χ ε) : ∀ (es : List (ℤ × Raw χ ε)) (os : List (Out ε)),
    List.Forall₂ (fun e o => convert c e.2 = .ok o) es os → es.Pairwise (fun a b => a.1 < b.1) →
    ∀ t, t < c.top → ∀ o, Holds ((spans (.moment c.top) (es.map fun e => .moment e.1)).zip os) t o ↔ InEffect c es t o
  | [], os, F, _, t, _, o => by
    cases F
    constructor
    · rintro ⟨a, b, h, -⟩; cases h
    · rintro ⟨e, h, -⟩; cases h
  | [e], os, F, _, t, ht, o => by
    cases F with
    | @cons _ o' _ _ h1 h2 =>
      cases h2
      constructor
      · rintro ⟨a, b, h, ha, hb⟩
        simp [spans] at h
        obtain ⟨⟨rfl, rfl⟩, rfl⟩ := h
        exact ⟨e, by simp, ha, by simp, h1⟩
      · rintro ⟨e', h, ha, -, hv⟩
        rw [List.mem_singleton] at h
        subst h
        rw [h1] at hv
        cases hv
        exact ⟨e'.1, c.top, by simp [spans], ha, ht⟩
  | e :: e' :: es, os, F, hs, t, ht, o => by
    cases F with
    | @cons _ o' _ os h1 h2 =>
      have IH := spans_effect c (e' :: es) os h2 (List.pairwise_cons.mp hs).2 t ht o
      have lt : ∀ x ∈ e' :: es, e.1 < x.1 := (List.pairwise_cons.mp hs).1
      have ge : ∀ x ∈ e' :: es, e'.1 ≤ x.1 := by
        intro x hx
        rcases List.mem_cons.mp hx with rfl | hx
        · exact le_refl _
        · exact le_of_lt ((List.pairwise_cons.mp (List.pairwise_cons.mp hs).2).1 x hx)
      rw [List.map_cons, List.map_cons, spans, List.zip_cons_cons]
      rw [List.map_cons] at IH
      constructor
      · rintro ⟨a, b, h, ha, hb⟩
        rcases List.mem_cons.mp h with h | h
        · cases h
          refine ⟨e, by simp, ha, ?_, h1⟩
          intro x hx hxt
          rcases List.mem_cons.mp hx with rfl | hx
          · exact le_refl _
          · have := ge x hx; omega
        · obtain ⟨x, hx, hxt, hmax, hv⟩ := IH.mp ⟨a, b, h, ha, hb⟩
          refine ⟨x, List.mem_cons_of_mem _ hx, hxt, ?_, hv⟩
          intro y hy hyt
          rcases List.mem_cons.mp hy with rfl | hy
          · exact le_of_lt (lt x hx)
          · exact hmax y hy hyt
      · rintro ⟨x, hx, hxt, hmax, hv⟩
        rcases List.mem_cons.mp hx with rfl | hx
        · rw [h1] at hv
          cases hv
          refine ⟨x.1, e'.1, List.mem_cons_self, hxt, ?_⟩
          by_contra hh
          have h3 := hmax e' (by simp) (by omega)
          have h4 := lt e' (by simp)
          omega
        · obtain ⟨a, b, h, ha, hb⟩ := IH.mpr ⟨x, hx, hxt, fun y hy => hmax y (List.mem_cons_of_mem _ hy), hv⟩
          exact ⟨a, b, List.mem_cons_of_mem _ h, ha, hb⟩

theorem forall_map {β : Type} (c : Env χ ε) (f : β → Key × Raw χ ε) (es : List β) (os : List (Out ε)) :
    List.Forall₂ (fun e o => convert c e.2 = .ok o) (es.map f) os ↔
      List.Forall₂ (fun e o => convert c (f e).2 = .ok o) es os := List.forall₂_map_left_iff

theorem dated_iff (c : Env χ ε) (es : List (ℤ × Raw χ ε)) (hne : es ≠ []) (hs : es.Pairwise fun a b => a.1 < b.1)
    (o : Out ε) : convert c (dated es) = .ok o ↔ ∃ os, List.Forall₂ (fun e o => convert c e.2 = .ok o) es os ∧
      o = .dict ((spans (.moment c.top) (es.map fun e => .moment e.1)).zip os) := by
  unfold dated
  have hst : (es.map fun e => Stamp.moment e.1).Nodup := by
    rw [List.nodup_iff_pairwise_ne, List.pairwise_map]
    exact hs.imp fun h e => absurd (Stamp.moment.inj e) (by omega)
  rw [convert_dict c _ (spans (.moment c.top) (es.map fun e => .moment e.1))]
  · exact exists_congr fun os => and_congr (forall_map ..) Iff.rfl
  · refine ⟨by simpa using hne, .inl ?_⟩
    intro k hk
    simp only [List.map_map, List.mem_map, Function.comp] at hk
    obtain ⟨e, -, rfl⟩ := hk
    trivial
  · unfold newKeys
    obtain ⟨e, rest, rfl⟩ := List.exists_cons_of_ne_nil hne
    rw [if_neg (by simp [isText]), if_pos (by simp [stampOf])]
    congr 1
    congr 1
    rw [List.map_map, List.filterMap_map]
    have : (stampOf ∘ (fun e : Key × Raw χ ε => e.1) ∘ fun e : ℤ × Raw χ ε => (Key.moment e.1, e.2)) =
      fun e => some (Stamp.moment e.1) := rfl
    rw [this]
    exact congrFun List.filterMap_eq_map' _
  · rw [spans_length]; simp
  · exact spans_nodup _ _ hst

/-! ## Theorems -/

/-- **C120, dates.** Expressions at dates in order of time are converted exactly if each of them is. In the result, at each
instant exactly the expression of the latest date not after it is in effect. -/
theorem C120_dates (c : Env χ ε) (es : List (ℤ × Raw χ ε)) (hne : es ≠ []) (hs : es.Pairwise fun a b => a.1 < b.1) :
    ((∃ o, convert c (dated es) = .ok o) ↔ ∀ e ∈ es, ∃ o, convert c e.2 = .ok o) ∧
    ∀ o, convert c (dated es) = .ok o → ∃ d, o = .dict d ∧ d.length = es.length ∧
      ∀ t, t < c.top → ∀ x, Holds d t x ↔ InEffect c es t x := by
  constructor
  · have E := ex_forall c (es.map fun e => (Key.moment e.1, e.2))
    constructor
    · rintro ⟨o, h⟩ e he
      obtain ⟨os, F, -⟩ := (dated_iff c es hne hs o).mp h
      exact E.mp ⟨os, (forall_map ..).mpr F⟩ (.moment e.1, e.2) (List.mem_map.mpr ⟨e, he, rfl⟩)
    · intro h
      obtain ⟨os, F⟩ := E.mpr (by
        intro e he
        obtain ⟨x, hx, rfl⟩ := List.mem_map.mp he
        exact h x hx)
      exact ⟨_, (dated_iff c es hne hs _).mpr ⟨os, (forall_map ..).mp F, rfl⟩⟩
  · intro o h
    obtain ⟨os, F, rfl⟩ := (dated_iff c es hne hs o).mp h
    refine ⟨_, rfl, ?_, spans_effect c es os F hs⟩
    rw [List.length_zip, spans_length, List.length_map, ← F.length_eq]
    simp

theorem effect_unique (c : Env χ ε) (es : List (ℤ × Raw χ ε)) (hs : es.Pairwise fun a b => a.1 < b.1) (t : ℤ)
    (x y : Out ε) (hx : InEffect c es t x) (hy : InEffect c es t y) : x = y := by
  obtain ⟨a, ha, hat, hamax, hav⟩ := hx
  obtain ⟨b, hb, hbt, hbmax, hbv⟩ := hy
  have e : a.1 = b.1 := le_antisymm (hbmax a ha hat) (hamax b hb hbt)
  have : a = b := by
    by_contra hne
    rcases List.pairwise_iff_getElem.mp hs with P
    obtain ⟨i, hi, rfl⟩ := List.mem_iff_getElem.mp ha
    obtain ⟨j, hj, rfl⟩ := List.mem_iff_getElem.mp hb
    rcases lt_trichotomy i j with h | h | h
    · have := P i j hi hj h; omega
    · subst h; exact hne rfl
    · have := P j i hj hi h; omega
  subst this
  exact Except.ok.inj (hav.symm.trans hbv)

/-- **C120, one at a time.** At no instant are two expressions in effect, and from the first date on there is one. -/
theorem C120_single (c : Env χ ε) (es : List (ℤ × Raw χ ε)) (hs : es.Pairwise fun a b => a.1 < b.1)
    (d : List (OutKey × Out ε)) (h : convert c (dated es) = .ok (.dict d)) (hne : es ≠ []) (t : ℤ) (ht : t < c.top) :
    (∀ x y, Holds d t x → Holds d t y → x = y) ∧ ((∃ e ∈ es, e.1 ≤ t) ↔ ∃ x, Holds d t x) := by
  have A := C120_dates c es hne hs
  obtain ⟨d', hd', -, H⟩ := A.2 _ h
  cases hd'
  refine ⟨fun x y hx hy => effect_unique c es hs t x y ((H t ht x).mp hx) ((H t ht y).mp hy), ?_⟩
  constructor
  · rintro ⟨e, he, het⟩
    have all := A.1.mp ⟨_, h⟩
    have : ∀ l : List (ℤ × Raw χ ε), (∃ e ∈ l, e.1 ≤ t) → ∃ e ∈ l, e.1 ≤ t ∧ ∀ e' ∈ l, e'.1 ≤ t → e'.1 ≤ e.1 := by
      intro l
      induction l with
      | nil => rintro ⟨e, h, -⟩; cases h
      | cons a l ih =>
        rintro ⟨e, he, het⟩
        by_cases hex : ∃ e ∈ l, e.1 ≤ t
        · obtain ⟨m, hm, hmt, hmax⟩ := ih hex
          by_cases ha : a.1 ≤ t ∧ m.1 < a.1
          · refine ⟨a, by simp, ha.1, ?_⟩
            intro e' he' h'
            rcases List.mem_cons.mp he' with rfl | he'
            · exact le_refl _
            · have := hmax e' he' h'; omega
          · refine ⟨m, List.mem_cons_of_mem _ hm, hmt, ?_⟩
            intro e' he' h'
            rcases List.mem_cons.mp he' with rfl | he'
            · omega
            · exact hmax e' he' h'
        · rcases List.mem_cons.mp he with rfl | he
          · refine ⟨e, by simp, het, ?_⟩
            intro e' he' h'
            rcases List.mem_cons.mp he' with rfl | he'
            · exact le_refl _
            · exact absurd ⟨e', he', h'⟩ hex
          · exact absurd ⟨e, he, het⟩ hex
    obtain ⟨m, hm, hmt, hmax⟩ := this es ⟨e, he, het⟩
    obtain ⟨x, hx⟩ := all m hm
    exact ⟨x, (H t ht x).mpr ⟨m, hm, hmt, hmax, hx⟩⟩
  · rintro ⟨x, hx⟩
    obtain ⟨e, he, het, -⟩ := (H t ht x).mp hx
    exact ⟨e, he, het⟩

/-- **C120, kinds.** Nothing becomes nothing, and only that; a single expression comes from an expression, which stays as it
is, or from a text or number that can be set up; a dict comes from a dict of dates or of periods. -/
theorem C120_kinds (c : Env χ ε) (v : Raw χ ε) :
    (convert c v = .ok .none ↔ v = .none) ∧
    (∀ e, convert c v = .ok (.expr e) ↔ v = .done e ∨ ∃ x, v = .plain x ∧ c.setup x = some e) ∧
    (∀ d, convert c v = .ok (.dict d) → ∃ l, v = .dict l ∧ OverTime c.reading (l.map (·.1))) := by
  cases v with
  | none =>
    rw [convert]
    refine ⟨by simp, fun e => ⟨(fun h => by cases h), ?_⟩, fun d h => by cases h⟩
    rintro (h | ⟨x, h, -⟩) <;> cases h
  | done a =>
    rw [convert]
    refine ⟨⟨(fun h => by cases h), (fun h => by cases h)⟩, fun e => ⟨(fun h => by cases h; exact .inl rfl), ?_⟩,
      fun d h => by cases h⟩
    rintro (h | ⟨x, h, -⟩) <;> cases h
    rfl
  | plain x =>
    rw [convert]
    cases hx : c.setup x with
    | none =>
      refine ⟨⟨(fun h => by cases h), (fun h => by cases h)⟩, fun e => ⟨(fun h => by cases h), ?_⟩, fun d h => by cases h⟩
      rintro (h | ⟨y, h, hy⟩)
      · cases h
      · cases h; rw [hx] at hy; cases hy
    | some a =>
      refine ⟨⟨(fun h => by cases h), (fun h => by cases h)⟩,
        fun e => ⟨(fun h => by cases h; exact .inr ⟨x, rfl, hx⟩), ?_⟩, fun d h => by cases h⟩
      rintro (h | ⟨y, h, hy⟩)
      · cases h
      · cases h; rw [hx] at hy; cases hy; rfl
  | dict l =>
    have key : ∀ o, convert c (.dict l) = .ok o → OverTime c.reading (l.map (·.1)) ∧ ∃ d, o = .dict d := by
      intro o h
      rw [convert] at h
      cases ht : isTemporal c.reading (l.map (·.1)) with
      | error e => rw [ht] at h; cases h
      | ok b =>
        rw [ht] at h
        cases b with
        | false => cases h
        | true =>
          dsimp only at h
          refine ⟨((C114_recognised c.reading _).1).mp ht, ?_⟩
          cases hb : build c (newKeys c (l.map (·.1))) l [] with
          | error e => rw [hb] at h; cases h
          | ok d => rw [hb] at h; exact ⟨d, (Except.ok.inj h).symm⟩
    refine ⟨⟨?_, (fun h => by cases h)⟩, fun e => ⟨?_, ?_⟩, fun d h => ⟨l, rfl, (key _ h).1⟩⟩
    · intro h
      obtain ⟨-, d, hd⟩ := key _ h
      cases hd
    · intro h
      obtain ⟨-, d, hd⟩ := key _ h
      cases hd
    · rintro (h | ⟨x, h, -⟩) <;> cases h

/-- **C120, periods.** Expressions under periods stay under these periods. -/
theorem C120_periods (c : Env χ ε) (es : List ((ℤ × ℤ) × Raw χ ε)) (hne : es ≠ []) (hn : (es.map (·.1)).Nodup)
    (o : Out ε) : convert c (periodic es) = .ok o ↔ ∃ os, List.Forall₂ (fun e o => convert c e.2 = .ok o) es os ∧
      o = .dict ((es.map fun e => OutKey.same (.period e.1.1 e.1.2)).zip os) := by
  unfold periodic
  rw [convert_dict c _ (es.map fun e => OutKey.same (.period e.1.1 e.1.2))]
  · exact exists_congr fun os => and_congr (forall_map ..) Iff.rfl
  · refine ⟨by simpa using hne, .inr ?_⟩
    intro k hk
    simp only [List.map_map, List.mem_map, Function.comp] at hk
    obtain ⟨e, -, rfl⟩ := hk
    trivial
  · unfold newKeys
    obtain ⟨e, rest, rfl⟩ := List.exists_cons_of_ne_nil hne
    rw [if_neg (by simp [isText]), if_neg (by simp [stampOf]), List.map_map, List.map_map, List.map_map]
    rfl
  · simp
  · have : (es.map fun e => OutKey.same (.period e.1.1 e.1.2)) =
        (es.map (·.1)).map fun p => OutKey.same (.period p.1 p.2) := by rw [List.map_map]; rfl
    rw [this]
    exact hn.map fun a b h => by cases a; cases b; cases h; rfl

/-- **C120, written periods.** Expressions under the texts of periods come under these periods: what was written by
`Period.__str__` is read back, provided the texts of times are. -/
theorem C120_written (c : Env χ ε) (text : ℤ → List Char) (es : List ((ℤ × ℤ) × Raw χ ε))
    (hread : ∀ e ∈ es, c.moment (text e.1.1) = some e.1.1 ∧ c.moment (text e.1.2) = some e.1.2)
    (hsep : ∀ e ∈ es, ';' ∉ text e.1.1 ∧ ';' ∉ text e.1.2) (hne : es ≠ []) (hn : (es.map (·.1)).Nodup)
    (o : Out ε) : convert c (written text es) = .ok o ↔
      ∃ os, List.Forall₂ (fun e o => convert c e.2 = .ok o) es os ∧
        o = .dict ((es.map fun e => OutKey.span (.moment e.1.1) (.moment e.1.2)).zip os) := by
  unfold written
  rw [convert_dict c _ (es.map fun e => OutKey.span (.moment e.1.1) (.moment e.1.2))]
  · exact exists_congr fun os => and_congr (forall_map ..) Iff.rfl
  · refine ⟨by simpa using hne, .inr ?_⟩
    intro k hk
    simp only [List.map_map, List.mem_map, Function.comp] at hk
    obtain ⟨e, he, rfl⟩ := hk
    exact ⟨text e.1.1, text e.1.2, [], by simp, (hsep e he).1, (hsep e he).2, .inl rfl,
      by simp [Env.reading, (hread e he).1], by simp [Env.reading, (hread e he).2]⟩
  · unfold newKeys
    rw [if_pos (by simp [isText]), List.map_map, List.map_map, List.map_map]
    apply List.map_congr_left
    intro e he
    show textKey c (.text (text e.1.1 ++ ';' :: text e.1.2)) = _
    rw [textKey, split_at _ _ (hsep e he).1, split_alone _ (hsep e he).2]
    dsimp only
    rw [(hread e he).1]
    dsimp only
    rw [(hread e he).2]
    rfl
  · simp
  · have : (es.map fun e => OutKey.span (.moment e.1.1) (.moment e.1.2)) =
        (es.map (·.1)).map fun p => OutKey.span (.moment p.1) (.moment p.2) := by rw [List.map_map]; rfl
    rw [this]
    exact hn.map fun a b h => by cases a; cases b; cases h; rfl

/-- **C120, lists.** A list of expressions is converted one by one, or not at all. -/
theorem C120_all (c : Env χ ε) : ∀ (vs : List (Raw χ ε)) (os : List (Out ε)),
    convertAll c vs = .ok os ↔ List.Forall₂ (fun v o => convert c v = .ok o) vs os
  | [], os => by
    rw [convertAll]
    constructor
    · intro h; rw [← Except.ok.inj h]; exact .nil
    · intro h; cases h; rfl
  | v :: vs, os => by
    rw [convertAll]
    constructor
    · intro h
      cases hv : convert c v with
      | error e => rw [hv] at h; cases h
      | ok o =>
        rw [hv] at h
        dsimp only at h
        cases hr : convertAll c vs with
        | error e => rw [hr] at h; cases h
        | ok rest =>
          rw [hr] at h
          rw [← Except.ok.inj h]
          exact .cons hv ((C120_all c vs rest).mp hr)
    · intro h
      cases h with
      | cons h1 h2 => rw [h1, (C120_all c vs _).mpr h2]

/-- **C120, finding.** Dates written as ISO texts are recognised as a model over time, but never converted: the text is
read in the other format, or taken for a period. -/
theorem C120_iso (c : Env χ ε) (s : List Char) (v : Raw χ ε) (rest : List (List Char × Raw χ ε))
    (hiso : ∀ e ∈ (s, v) :: rest, ';' ∉ e.1 ∧ c.iso e.1 = true) :
    isTemporal c.reading (((s, v) :: rest).map fun e => .text e.1) = .ok true ∧
    (convert c (.dict (((s, v) :: rest).map fun e => (.text e.1, e.2))) = .error .valueError ∨
      convert c (.dict (((s, v) :: rest).map fun e => (.text e.1, e.2))) = .error .indexError) := by
  have hsep : ';' ∉ s := (hiso (s, v) List.mem_cons_self).1
  have ht : isTemporal c.reading (((s, v) :: rest).map fun e => Key.text e.1) = .ok true := by
    refine ((C114_recognised c.reading _).1).mpr ⟨by simp, .inl ?_⟩
    intro k hk
    obtain ⟨e, he, rfl⟩ := List.mem_map.mp hk
    exact hiso e he
  refine ⟨ht, ?_⟩
  have hmap : ((((s, v) :: rest).map fun e => (Key.text e.1, e.2)).map (·.1)) = ((s, v) :: rest).map fun e => Key.text e.1 := by
    rw [List.map_map]; rfl
  rw [convert, hmap, ht]
  dsimp only
  unfold newKeys
  rw [if_pos (by simp [isText]), List.map_cons, List.map_cons, List.map_cons]
  have hk : textKey c (.text s) = .error .valueError ∨ textKey c (.text s) = .error .indexError := by
    rw [textKey, split_alone s hsep]
    dsimp only
    cases c.moment s with
    | none => exact .inl rfl
    | some t => exact .inr rfl
  rcases hk with hk | hk
  · left; rw [hk, build]
  · right; rw [hk, build]

/-! ## Findings -/

/-- Times are written with one letter each. -/
def env : Env ℕ ℕ where
  iso := fun s => s = ['T']
  moment := fun s => match s with | ['a'] => some 1 | ['b'] => some 2 | ['c'] => some 3 | _ => none
  setup := fun n => if n < 10 then some (n + 100) else none
  top := 1000

/-- **C120, finding.** Dates that are not in order of time give a period that ends before it begins, and the older
expression is in effect after the younger one's date. -/
theorem C120_unsorted : convert env (dated [(2, .plain 7), (1, .plain 8)]) =
      .ok (.dict [(.span (.moment 2) (.moment 1), .expr 107), (.span (.moment 1) (.moment 1000), .expr 108)]) := by
  rfl

/-- **C120, finding.** If some dates are texts the keys are left as they are, no periods are made. -/
theorem C120_mixed : convert env (.dict [(.moment 1, .plain 7), (.text ['T'], .plain 8)]) =
    .ok (.dict [(.same (.moment 1), .expr 107), (.same (.text ['T']), .expr 108)]) := by
  rfl

/-! ## Examples -/

/-- Dates in order. -/
example : convert env (dated [(1, .plain 7), (2, .done 3), (5, .none)]) =
    .ok (.dict [(.span (.moment 1) (.moment 2), .expr 107), (.span (.moment 2) (.moment 5), .expr 3),
      (.span (.moment 5) (.moment 1000), .none)]) := by rfl

/-- Texts of periods. -/
example : convert env (.dict [(.text ['a', ';', 'b'], .plain 1), (.text ['b', ';', 'c'], .plain 2)]) =
    .ok (.dict [(.span (.moment 1) (.moment 2), .expr 101), (.span (.moment 2) (.moment 3), .expr 102)]) := by rfl

/-- One bad expression. -/
example : convert env (dated [(1, .plain 7), (2, .plain 70)]) = .error .invalidExpression := by rfl

/-- A list, and a dict that is no model over time. -/
example : convertAll env [.plain 1, .none] = .ok [.expr 101, .none] ∧
    convert env (.dict [(.text ['x'], .plain 1)]) = .error .invalidExpression := ⟨rfl, rfl⟩

end Verif.C120
