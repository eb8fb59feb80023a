import Verif.Model.Consumer
import Verif.Props.C13
import Verif.Props.C23
import Verif.Props.C47

/-!
# C51: a consumer's series come from the model in force in each period

The temporal model of a consumer gives one result per model. The energy usage, power and validity reported for the
consumer over all periods carry, in each period, the value of the model in force, and the neutral value where none is.
-/

namespace Verif.C51
open Verif.Time Verif.Units Verif.Rates Verif.Consumer Verif.Inputs Verif.C13 Verif.C05

variable {α : Type}

/-- Specification: what the result `r` says for the period `p` (its default when it lacks the attribute). -/
def Says (fill : α) (r : Part α) (p : Period) (v : α) : Prop :=
  ∃ i : Nat, r.periods[i]? = some p ∧ match r.values with
    | some vs => vs[i]? = some v
    | none => v = fill

theorem lookup_nodup {κ ν : Type} [DecidableEq κ] (l : List (κ × ν)) (h : (l.map (·.1)).Nodup) (k : κ) (v : ν) :
    l.lookup k = some v ↔ (k, v) ∈ l := by
  induction l with
  | nil => simp
  | cons a l ih =>
    obtain ⟨k', v'⟩ := a
    simp only [List.map_cons, List.nodup_cons] at h
    by_cases hk : k = k'
    · subst hk
      rw [List.lookup_cons_self]
      constructor
      · intro e; simp only [Option.some.injEq] at e; subst e; simp
      · intro e
        rcases List.mem_cons.1 e with e | e
        · simp only [Prod.mk.injEq, true_and] at e; rw [e]
        · exact absurd (List.mem_map_of_mem (f := (·.1)) e) h.1
    · rw [List.lookup_cons, beq_eq_false_iff_ne.2 hk, ih h.2]
      simp [hk]

theorem lookup_none_iff {κ ν : Type} [DecidableEq κ] (l : List (κ × ν)) (k : κ) :
    l.lookup k = none ↔ k ∉ l.map (·.1) := by
  induction l with
  | nil => simp
  | cons a l ih =>
    obtain ⟨k', v'⟩ := a
    by_cases hk : k = k'
    · subst hk; simp
    · rw [List.lookup_cons, beq_eq_false_iff_ne.2 hk, ih]
      simp [hk]

/-- Extending keeps exactly the pairs of both series. -/
theorem extend_pairs {s o r : TS α} (hs : OnePerPeriod s) (ho : OnePerPeriod o) (h : s.extend o = .ok r) :
    OnePerPeriod r ∧ r.unit = s.unit ∧ s.unit = o.unit ∧ (pairs r).Perm (pairs s ++ pairs o) := by
  obtain ⟨ps, vs, u⟩ := s
  obtain ⟨qs, ws, u'⟩ := o
  unfold OnePerPeriod at hs ho
  simp only at hs ho
  have h1 : TS.make (ps ++ qs) (vs ++ ws) u = .ok ⟨ps ++ qs, vs ++ ws, u⟩ := make_ok (by simp [hs, ho])
  have h2 : TS.make (qs ++ ps) (ws ++ vs) u = .ok ⟨qs ++ ps, ws ++ vs, u⟩ := make_ok (by simp [hs, ho])
  have p1 : pairs (⟨ps ++ qs, vs ++ ws, u⟩ : TS α) = pairs ⟨ps, vs, u⟩ ++ pairs ⟨qs, ws, u'⟩ := by
    unfold pairs; exact List.zip_append hs
  have p2 : pairs (⟨qs ++ ps, ws ++ vs, u⟩ : TS α) = pairs ⟨qs, ws, u'⟩ ++ pairs ⟨ps, vs, u⟩ := by
    unfold pairs; exact List.zip_append ho
  have e1 : r = ⟨ps ++ qs, vs ++ ws, u⟩ ∨ r = ⟨qs ++ ps, ws ++ vs, u⟩ → u = u' → OnePerPeriod r ∧ r.unit = u ∧ u = u' ∧
      (pairs r).Perm (pairs ⟨ps, vs, u⟩ ++ pairs ⟨qs, ws, u'⟩) := by
    rintro (rfl | rfl) hu
    · refine ⟨by simp [OnePerPeriod, hs, ho], rfl, hu, ?_⟩
      rw [p1]
    · refine ⟨by simp [OnePerPeriod, hs, ho], rfl, hu, ?_⟩
      rw [p2]
      exact List.perm_append_comm
  unfold TS.extend at h
  by_cases hu : u = u'
  · subst hu
    simp only [ne_eq, not_true_eq_false, if_false] at h
    split at h
    · simp only [Bind.bind, Except.bind] at h
      split at h
      · simp at h
      split at h
      · simp at h
      split at h
      · simp at h
      split at h
      · simp at h
      split at h
      · simp at h
      split at h
      · rw [h1] at h; simp only [Except.ok.injEq] at h; exact e1 (.inl h.symm) rfl
      · rw [h2] at h; simp only [Except.ok.injEq] at h; exact e1 (.inr h.symm) rfl
    · rw [h2] at h; simp only [Except.ok.injEq] at h; exact e1 (.inr h.symm) rfl
  · simp [hu] at h

theorem extendAll_pairs (ss : List (TS α)) (hss : ∀ o ∈ ss, OnePerPeriod o) (s r : TS α) (hs : OnePerPeriod s)
    (h : extendAll s ss = .ok r) : OnePerPeriod r ∧ r.unit = s.unit ∧ (pairs r).Perm ((s :: ss).flatMap pairs) := by
  induction ss generalizing s with
  | nil =>
    simp only [extendAll, Except.ok.injEq] at h
    subst h
    exact ⟨hs, rfl, by simp⟩
  | cons o os ih =>
    simp only [extendAll, Bind.bind, Except.bind] at h
    split at h
    · simp at h
    rename_i e he
    obtain ⟨a1, a2, -, a4⟩ := extend_pairs hs (hss o (by simp)) he
    obtain ⟨b1, b2, b3⟩ := ih (fun x hx => hss x (by simp [hx])) e a1 h
    refine ⟨b1, b2.trans a2, b3.trans ?_⟩
    simp only [List.flatMap_cons]
    rw [← List.append_assoc]
    exact a4.append_right _

/-- The series made from the results. -/
theorem series_ok (fill : α) (allow : Bool) (rs : List (Part α)) (ss : List (TS α))
    (h : series fill allow rs = .ok (some ss)) :
    ss.map (·.periods) = rs.map (·.periods) ∧ ss.map (fun s => some s.unit) = rs.map (·.unit) ∧ (∀ s ∈ ss, OnePerPeriod s) ∧
    ∀ p v, (p, v) ∈ ss.flatMap pairs ↔ ∃ r ∈ rs, Says fill r p v := by
  induction rs generalizing ss with
  | nil =>
    simp only [series, Except.ok.injEq, Option.some.injEq] at h
    subst h
    simp
  | cons r rs ih =>
    obtain ⟨ps, vals, u⟩ := r
    unfold series at h
    split at h
    · simp at h
    simp only at h
    cases u with
    | none => simp at h
    | some u =>
      simp only [Bind.bind, Except.bind] at h
      split at h
      · simp at h
      rename_i s hs
      split at h
      · simp at h
      rename_i rest hrest
      cases rest with
      | none => simp [Pure.pure, Except.pure] at h
      | some os =>
        simp only [Option.map_some, Pure.pure, Except.pure, Except.ok.injEq, Option.some.injEq] at h
        subst h
        obtain ⟨a1, a2, a3, a4⟩ := ih os hrest
        unfold TS.make at hs
        split at hs
        · rename_i hlen
          simp only [Except.ok.injEq] at hs
          subst hs
          refine ⟨by simp [a1], by simp [a2], ?_, ?_⟩
          · intro x hx
            rcases List.mem_cons.1 hx with rfl | hx
            · exact hlen
            · exact a3 x hx
          · intro p v
            rw [List.flatMap_cons, List.mem_append, a4]
            have key : (p, v) ∈ pairs (⟨ps, vals.getD (List.replicate ps.length fill), u⟩ : TS α) ↔
                Says fill ⟨ps, vals, some u⟩ p v := by
              unfold pairs Says
              simp only
              rw [List.mem_iff_getElem?]
              constructor
              · rintro ⟨i, hi⟩
                rw [List.getElem?_zip_eq_some] at hi
                refine ⟨i, hi.1, ?_⟩
                cases vals with
                | some vs => exact hi.2
                | none =>
                  have := List.mem_of_getElem? hi.2
                  exact List.eq_of_mem_replicate this
              · rintro ⟨i, h1, h2⟩
                refine ⟨i, List.getElem?_zip_eq_some.2 ⟨h1, ?_⟩⟩
                cases vals with
                | some vs => exact h2
                | none =>
                  simp only at h2
                  subst h2
                  have : i < ps.length := (List.getElem?_eq_some_iff.1 h1).1
                  simp [this]
            rw [key]
            simp
        · simp at hs

/-- **C51, the value of the model in force.** Whenever the property of a consumer is defined, and no period occurs in two
results, it has exactly one value for each of the periods asked for: what the result containing the period says, and the
fill value where no result contains it. Nothing the results say is lost: their periods are all among those asked for. -/
theorem C51_in_force (fill : α) (allow : Bool) (ps : Periods) (rs : List (Part α)) (s : TS α) (hps : ps.Nodup)
    (hn : (rs.flatMap (·.periods)).Nodup) (h : concatenated fill allow ps rs = .ok (some s)) :
    s.periods = ps ∧ s.values.length = ps.length ∧ (∀ r ∈ rs, r.unit = some s.unit) ∧
    (∀ r ∈ rs, ∀ p ∈ r.periods, p ∈ ps) ∧
    ∀ (k : Nat) (p : Period) (v : α), ps[k]? = some p → s.values[k]? = some v →
      (∀ r ∈ rs, p ∈ r.periods → Says fill r p v) ∧ ((∀ r ∈ rs, p ∉ r.periods) → v = fill) := by
  unfold concatenated at h
  simp only [Bind.bind, Except.bind] at h
  split at h
  · simp at h
  rename_i ser hser
  match ser, hser, h with
  | none, _, h => simp [Pure.pure, Except.pure] at h
  | some [], _, h => simp at h
  | some (s0 :: ss), hser, h =>
    obtain ⟨a1, a2, a3, a4⟩ := series_ok fill allow rs _ hser
    simp only at h
    split at h
    · rename_i hunits
      split at h
      · simp at h
      rename_i e he
      split at h
      · simp at h
      rename_i r hr
      simp only [Pure.pure, Except.pure, Except.ok.injEq, Option.some.injEq] at h
      subst h
      obtain ⟨b1, b2, b3⟩ := extendAll_pairs ss (fun o ho => a3 o (by simp [ho])) s0 e (a3 s0 (by simp)) he
      have hkeys : ∀ t : TS α, OnePerPeriod t → (pairs t).map (·.1) = t.periods := by
        intro t ht
        unfold pairs
        rw [List.map_fst_zip]
        exact le_of_eq ht
      have hpe : e.periods.Perm (rs.flatMap (·.periods)) := by
        have h1 := b3.map (·.1)
        rw [hkeys e b1] at h1
        have h2 : ((s0 :: ss).flatMap pairs).map (·.1) = rs.flatMap (·.periods) := by
          rw [List.map_flatMap]
          have : (s0 :: ss).flatMap (fun a => (pairs a).map (·.1)) = (s0 :: ss).flatMap (·.periods) := by
            apply List.flatMap_congr
            intro t ht
            exact hkeys t (a3 t ht)
          rw [this, List.flatMap_def, a1, ← List.flatMap_def]
        rw [h2] at h1
        exact h1
      have hen : e.periods.Nodup := hpe.nodup_iff.2 hn
      have hsub : ∀ p ∈ e.periods, p ∈ ps := by
        by_contra hc
        push Not at hc
        have := (C13_fill e b1 hen ps hps fill).2 hc
        rw [this] at hr
        simp at hr
      obtain ⟨r', c1, c2, c3, c4⟩ := (C13_fill e b1 hen ps hps fill).1 hsub
      rw [c1] at hr
      simp only [Except.ok.injEq] at hr
      subst hr
      have hpn : ((pairs e).map (·.1)).Nodup := by rw [hkeys e b1]; exact hen
      refine ⟨c2, by rw [c4]; simp, ?_, ?_, ?_⟩
      · intro x hx
        have hu : ∀ t ∈ s0 :: ss, t.unit = s0.unit := by
          intro t ht
          rcases List.mem_cons.1 ht with rfl | ht
          · rfl
          · simpa using List.all_eq_true.1 hunits t ht
        have : x.unit ∈ (s0 :: ss).map (fun s => some s.unit) := by rw [a2]; exact List.mem_map_of_mem hx
        obtain ⟨t, ht, e1⟩ := List.mem_map.1 this
        rw [← e1, hu t ht, c3, b2]
      · intro x hx p hp
        exact hsub p (hpe.mem_iff.2 (List.mem_flatMap.2 ⟨x, hx, hp⟩))
      · intro k p v hk hv
        rw [c4, List.getElem?_map, hk] at hv
        simp only [Option.map_some, Option.some.injEq] at hv
        constructor
        · intro x hx hp
          cases hl : (pairs e).lookup p with
          | none =>
            rw [lookup_none_iff, hkeys e b1] at hl
            exact absurd (hpe.mem_iff.2 (List.mem_flatMap.2 ⟨x, hx, hp⟩)) hl
          | some w =>
            rw [hl] at hv
            simp only [Option.getD_some] at hv
            subst hv
            rw [lookup_nodup _ hpn, b3.mem_iff, a4] at hl
            obtain ⟨y, hy, hsay⟩ := hl
            have hyp : p ∈ y.periods := by
              obtain ⟨i, hi, -⟩ := hsay
              exact List.mem_of_getElem? hi
            -- a period is in one result only
            have : x = y := by
              by_contra hne
              rw [List.nodup_flatMap] at hn
              obtain ⟨i, hi⟩ := List.mem_iff_getElem.1 hx
              obtain ⟨j, hj⟩ := List.mem_iff_getElem.1 hy
              obtain ⟨hi', hi⟩ := hi
              obtain ⟨hj', hj⟩ := hj
              have hpw := List.pairwise_iff_getElem.1 hn.2
              rcases lt_trichotomy i j with hij | hij | hij
              · have := hpw i j hi' hj' hij
                rw [Function.onFun, hi, hj] at this
                exact this hp hyp
              · subst hij
                exact hne (hi.symm.trans hj)
              · have := hpw j i hj' hi' hij
                rw [Function.onFun, hi, hj] at this
                exact this hyp hp
            rw [this]
            exact hsay
        · intro hno
          have : (pairs e).lookup p = none := by
            rw [lookup_none_iff, hkeys e b1, hpe.mem_iff, List.mem_flatMap]
            rintro ⟨x, hx, hp⟩
            exact hno x hx hp
          rw [this] at hv
          exact hv.symm
    · simp at h

theorem series_some (fill : α) (allow : Bool) (u : EUnit) (rs : List (Part α))
    (hu : ∀ r ∈ rs, r.unit = some u) (hl : ∀ r ∈ rs, ∀ vs, r.values = some vs → r.periods.length = vs.length)
    (hv : ∀ r ∈ rs, r.values = none → allow = false) :
    series fill allow rs = .ok (some (rs.map fun r => ⟨r.periods, r.values.getD (List.replicate r.periods.length fill), u⟩)) := by
  induction rs with
  | nil => rfl
  | cons r rs ih =>
    obtain ⟨ps, vals, w⟩ := r
    have h1 := hu _ (List.mem_cons_self ..)
    have h2 := hl _ (List.mem_cons_self ..)
    have h3 := hv _ (List.mem_cons_self ..)
    simp only at h1 h2 h3
    subst h1
    unfold series
    rw [if_neg]
    · rw [ih (fun r hr => hu r (by simp [hr])) (fun r hr => hl r (by simp [hr])) (fun r hr => hv r (by simp [hr]))]
      simp only [Bind.bind, Except.bind]
      rw [make_ok]
      · rfl
      · cases vals with
        | none => simp
        | some vs => exact h2 vs rfl
    · cases vals with
      | none => simp [h3 rfl]
      | some vs => simp

theorem wf_append_touch : ∀ {a b : Periods} {l f : Period}, WF (a ++ b) → a.getLast? = some l → b.head? = some f →
    l.stop = f.start
  | [], _, _, _, _, h, _ => by simp at h
  | [x], [], _, _, _, _, h => by simp at h
  | [x], y :: b, l, f, hw, h1, h2 => by
    simp only [List.getLast?_singleton, Option.some.injEq, List.head?_cons] at h1 h2
    subst h1 h2
    exact hw.2.1
  | x :: y :: a, b, l, f, hw, h1, h2 => by
    rw [List.getLast?_cons_cons] at h1
    exact wf_append_touch hw.2.2 h1 h2

theorem wf_append_left : ∀ {a b : Periods}, WF (a ++ b) → WF a
  | [], _, _ => trivial
  | [x], [], h => h
  | [x], y :: b, h => h.1
  | x :: y :: a, b, h => ⟨h.1, h.2.1, wf_append_left (a := y :: a) (b := b) h.2.2⟩

theorem wf_append_right : ∀ {a b : Periods}, WF (a ++ b) → WF b
  | [], _, h => h
  | [x], [], _ => trivial
  | [x], y :: b, h => h.2.2
  | x :: y :: a, b, h => wf_append_right (a := y :: a) (b := b) h.2.2

/-- Extending in chronological order succeeds, empty series included. -/
theorem extend_ok (s o : TS α) (hs : OnePerPeriod s) (ho : OnePerPeriod o) (hu : s.unit = o.unit)
    (hw : WF (s.periods ++ o.periods)) : s.extend o = .ok ⟨s.periods ++ o.periods, s.values ++ o.values, s.unit⟩ := by
  obtain ⟨ps, vs, u⟩ := s
  obtain ⟨qs, ws, u'⟩ := o
  simp only at hu hw
  subst hu
  have hs' : ps.length = vs.length := hs
  have ho' : qs.length = ws.length := ho
  by_cases h1 : ps = []
  · subst h1
    have : vs = [] := by simpa using hs'.symm
    subst this
    simp [TS.extend, TS.make, ho']
  · by_cases h2 : qs = []
    · subst h2
      have : ws = [] := by simpa using ho'.symm
      subst this
      simp [TS.extend, TS.make, hs']
    · exact (C13_extend_chronological _ _ hs ho rfl (wf_append_left hw) (wf_append_right hw) _ _
        (List.getLast?_eq_some_getLast h1) (List.head?_eq_some_head h2)
        (wf_append_touch hw (List.getLast?_eq_some_getLast h1) (List.head?_eq_some_head h2))).1

theorem extendAll_ok (ss : List (TS α)) (s : TS α) (hs : OnePerPeriod s) (hss : ∀ o ∈ ss, OnePerPeriod o)
    (hu : ∀ o ∈ ss, o.unit = s.unit) (hw : WF (s.periods ++ ss.flatMap (·.periods))) :
    ∃ r, extendAll s ss = .ok r ∧ r.periods = s.periods ++ ss.flatMap (·.periods) ∧ OnePerPeriod r := by
  induction ss generalizing s with
  | nil => exact ⟨s, rfl, by simp, hs⟩
  | cons o os ih =>
    rw [List.flatMap_cons, ← List.append_assoc] at hw
    have he := extend_ok s o hs (hss o (by simp)) (hu o (by simp)).symm (wf_append_left hw)
    obtain ⟨r, h1, h2, h3⟩ := ih ⟨s.periods ++ o.periods, s.values ++ o.values, s.unit⟩
      (by have a : s.periods.length = s.values.length := hs
          have b : o.periods.length = o.values.length := hss o (by simp)
          simp [OnePerPeriod, a, b])
      (fun x hx => hss x (by simp [hx])) (fun x hx => hu x (by simp [hx])) hw
    refine ⟨r, ?_, ?_, h3⟩
    · simp only [extendAll, he, Bind.bind, Except.bind, h1]
    · rw [h2]; simp

/-- **C51, defined.** When the results follow each other without gaps, have one unit, one value for each of their periods
(or lack an optional attribute that is not reported as missing) and cover only periods asked for, the property is
defined. -/
theorem C51_defined (fill : α) (allow : Bool) (ps : Periods) (rs : List (Part α)) (u : EUnit) (hne : rs ≠ [])
    (hps : ps.Nodup) (hu : ∀ r ∈ rs, r.unit = some u)
    (hl : ∀ r ∈ rs, ∀ vs, r.values = some vs → r.periods.length = vs.length)
    (hv : ∀ r ∈ rs, r.values = none → allow = false) (hw : WF (rs.flatMap (·.periods)))
    (hsub : ∀ r ∈ rs, ∀ p ∈ r.periods, p ∈ ps) : ∃ s, concatenated fill allow ps rs = .ok (some s) := by
  obtain ⟨r, rs', rfl⟩ : ∃ r rs', rs = r :: rs' := List.exists_cons_of_ne_nil hne
  have hone : ∀ x ∈ r :: rs', OnePerPeriod
      (⟨x.periods, x.values.getD (List.replicate x.periods.length fill), u⟩ : TS α) := by
    intro x hx
    unfold OnePerPeriod
    cases hxv : x.values with
    | none => simp
    | some vs => simpa using hl x hx vs hxv
  have hflat : ∀ l : List (Part α), (l.map fun r => (⟨r.periods, r.values.getD (List.replicate r.periods.length fill), u⟩
      : TS α)).flatMap (·.periods) = l.flatMap (·.periods) := by
    intro l
    rw [List.flatMap_map]
  obtain ⟨e, h1, h2, h3⟩ := extendAll_ok
    (rs'.map fun r => (⟨r.periods, r.values.getD (List.replicate r.periods.length fill), u⟩ : TS α))
    ⟨r.periods, r.values.getD (List.replicate r.periods.length fill), u⟩ (hone r (by simp))
    (by intro o ho; obtain ⟨x, hx, rfl⟩ := List.mem_map.1 ho; exact hone x (by simp [hx]))
    (by intro o ho; obtain ⟨x, hx, rfl⟩ := List.mem_map.1 ho; rfl) (by rw [hflat]; exact hw)
  rw [hflat] at h2
  have hen : e.periods.Nodup := by
    rw [h2]
    have : r.periods ++ rs'.flatMap (·.periods) = (r :: rs').flatMap (·.periods) := rfl
    rw [this]
    exact C47.wf_nodup hw
  obtain ⟨f, hf, -⟩ := (C13_fill e h3 hen ps hps fill).1 (by
    intro p hp
    rw [h2] at hp
    have : p ∈ (r :: rs').flatMap (·.periods) := hp
    obtain ⟨x, hx, hxp⟩ := List.mem_flatMap.1 this
    exact hsub x hx p hxp)
  refine ⟨f, ?_⟩
  unfold concatenated
  rw [series_some fill allow u _ hu hl hv]
  simp only [Bind.bind, Except.bind, List.map_cons]
  rw [if_pos (by simp), h1]
  simp only
  rw [hf]
  rfl

/-- **C51, missing attribute.** An attribute that may be missing (the power) is reported as missing for the whole consumer as
soon as one of its results, even one of a single period, does not have it. -/
theorem C51_missing (fill : α) (ps : Periods) (rs : List (Part α)) (u : EUnit) (hu : ∀ r ∈ rs, r.unit = some u)
    (hl : ∀ r ∈ rs, ∀ vs, r.values = some vs → r.periods.length = vs.length) (h : ∃ r ∈ rs, r.values = none) :
    concatenated fill true ps rs = .ok none := by
  have hser : series fill true rs = .ok none := by
    induction rs with
    | nil => simp at h
    | cons r rs ih =>
      obtain ⟨qs, vals, w⟩ := r
      have h1 := hu _ (List.mem_cons_self ..)
      have h2 := hl _ (List.mem_cons_self ..)
      simp only at h1 h2
      subst h1
      unfold series
      cases vals with
      | none => simp
      | some vs =>
        have hrest : ∃ r ∈ rs, r.values = none := by
          obtain ⟨x, hx, hx'⟩ := h
          rcases List.mem_cons.1 hx with rfl | hx
          · simp at hx'
          · exact ⟨x, hx, hx'⟩
        rw [ih (fun r hr => hu r (by simp [hr])) (fun r hr => hl r (by simp [hr])) hrest]
        rw [if_neg (by simp)]
        simp only [Bind.bind, Except.bind, Option.getD_some]
        rw [make_ok (h2 vs rfl)]
        rfl
  unfold concatenated
  rw [hser]
  rfl

/-- **C51, refused.** A consumer without results, results in different units, and a first pair of results that touch at
neither end are errors, not wrong series. -/
theorem C51_refused (fill : α) (allow : Bool) (ps : Periods) :
    concatenated fill allow ps [] = .error .assertion ∧
    (∀ (rs : List (Part α)), (∀ r ∈ rs, ∃ vs, r.values = some vs ∧ r.periods.length = vs.length) →
      (∀ r ∈ rs, r.unit ≠ none) → (∃ r ∈ rs, ∃ r' ∈ rs, r.unit ≠ r'.unit) →
      concatenated fill allow ps rs = .error .assertion) ∧
    ∀ (a b : Part α) (u : EUnit) (va vb : List α) (f1 l1 f2 l2 : Period), a.unit = some u → b.unit = some u →
      a.values = some va → b.values = some vb → a.periods.length = va.length → b.periods.length = vb.length →
      a.periods.head? = some f1 → a.periods.getLast? = some l1 → b.periods.head? = some f2 →
      b.periods.getLast? = some l2 → l1.stop ≠ f2.start → l2.stop ≠ f1.start →
      concatenated fill allow ps [a, b] = .error .valueError := by
  refine ⟨rfl, ?_, ?_⟩
  · intro rs hv hu hd
    have hser : ∀ rs : List (Part α), (∀ r ∈ rs, ∃ vs, r.values = some vs ∧ r.periods.length = vs.length) →
        (∀ r ∈ rs, r.unit ≠ none) → ∃ ss, series fill allow rs = .ok (some ss) := by
      intro rs
      induction rs with
      | nil => intro _ _; exact ⟨[], rfl⟩
      | cons r rs ih =>
        intro hv hu
        obtain ⟨ss, hss⟩ := ih (fun r hr => hv r (by simp [hr])) (fun r hr => hu r (by simp [hr]))
        obtain ⟨vs, h1, h2⟩ := hv r (by simp)
        obtain ⟨w, hw⟩ := Option.ne_none_iff_exists'.1 (hu r (by simp))
        unfold series
        rw [if_neg (by simp [h1]), hw, hss, h1]
        simp only [Bind.bind, Except.bind, Option.getD_some]
        rw [make_ok h2]
        exact ⟨_, rfl⟩
    obtain ⟨ss, hss⟩ := hser rs hv hu
    obtain ⟨-, a2, -, -⟩ := series_ok fill allow rs ss hss
    unfold concatenated
    rw [hss]
    simp only [Bind.bind, Except.bind]
    cases ss with
    | nil => rfl
    | cons s ss =>
      simp only
      rw [if_neg]
      intro hall
      obtain ⟨r, hr, r', hr', hne⟩ := hd
      have key : ∀ x ∈ rs, x.unit = some s.unit := by
        intro x hx
        have : x.unit ∈ (s :: ss).map (fun s => some s.unit) := by rw [a2]; exact List.mem_map_of_mem hx
        obtain ⟨t, ht, e1⟩ := List.mem_map.1 this
        rw [← e1]
        rcases List.mem_cons.1 ht with rfl | ht
        · rfl
        · have : t.unit = s.unit := by simpa using List.all_eq_true.1 hall t ht
          rw [this]
      exact hne ((key r hr).trans (key r' hr').symm)
  · intro a b u va vb f1 l1 f2 l2 ha hb hva hvb la lb hf1 hl1 hf2 hl2 h1 h2
    unfold concatenated
    rw [series_some fill allow u [a, b] (by simp [ha, hb]) (by
      intro r hr vs hvs
      simp only [List.mem_cons, List.not_mem_nil, or_false] at hr
      rcases hr with rfl | rfl
      · rw [hva] at hvs; simp only [Option.some.injEq] at hvs; subst hvs; exact la
      · rw [hvb] at hvs; simp only [Option.some.injEq] at hvs; subst hvs; exact lb) (by
      intro r hr hn
      simp only [List.mem_cons, List.not_mem_nil, or_false] at hr
      rcases hr with rfl | rfl
      · rw [hva] at hn; simp at hn
      · rw [hvb] at hn; simp at hn)]
    simp only [Bind.bind, Except.bind, List.map_cons, List.map_nil, List.all_cons, List.all_nil, decide_true, Bool.and_self,
      if_true, extendAll]
    rw [C13_extend_gap_rejected _ _ (by simpa [OnePerPeriod, hva] using la) (by simpa [OnePerPeriod, hvb] using lb) f1 l1 f2 l2
      hf1 hl1 hf2 hl2 (.inr ⟨h1, h2⟩)]

/-- **C51, operational settings** are counted from one; zero says that no setting was in force. -/
theorem C51_settings (ps : Periods) (rs : List (Part Int)) (s : TS Int) (hps : ps.Nodup)
    (hn : (rs.flatMap (·.periods)).Nodup) (h : settingsUsed ps rs = .ok (some s)) :
    s.periods = ps ∧ s.values.length = ps.length ∧
    ∀ (k : Nat) (p : Period) (v : Int), ps[k]? = some p → s.values[k]? = some v →
      (∀ r ∈ rs, p ∈ r.periods → Says (-1) r p (v - 1)) ∧ ((∀ r ∈ rs, p ∉ r.periods) → v = 0) := by
  unfold settingsUsed at h
  simp only [Bind.bind, Except.bind, Pure.pure, Except.pure] at h
  split at h
  · simp at h
  rename_i o ho
  cases o with
  | none => simp at h
  | some t =>
    simp only [Option.map_some, Except.ok.injEq, Option.some.injEq] at h
    subst h
    obtain ⟨h1, h2, -, -, h5⟩ := C51_in_force (-1) false ps rs t hps hn ho
    refine ⟨h1, by simp [oneBased, h2], ?_⟩
    intro k p v hk hv
    simp only [oneBased, List.getElem?_map] at hv
    cases hw : t.values[k]? with
    | none => rw [hw] at hv; simp at hv
    | some w =>
      rw [hw] at hv
      simp only [Option.map_some, Option.some.injEq] at hv
      subst hv
      obtain ⟨g1, g2⟩ := h5 k p w hk hw
      refine ⟨fun r hr hp => ?_, fun hno => ?_⟩
      · have := g1 r hr hp
        simpa using this
      · rw [g2 hno]; rfl

/-! ## Consumers with one energy usage model per period -/

/-- Specification: an energy usage `v` when the share `f` of it is lost on the way. -/
def withLoss (v f : Fl) : Fl := match v, f with
  | some x, some y => if y = 1 then none else some (x / (1 - y))
  | _, _ => none

/-- Specification: the value number `i` after the loss given for it, if any. -/
def Delivered (loss : Option (List Fl)) (vs : List Fl) (i : Nat) (v : Fl) : Prop :=
  ∃ x, vs[i]? = some x ∧ match loss with
    | none => v = x
    | some fs => ∃ f, fs[i]? = some f ∧ v = withLoss x f

theorem loss_ok (fs us : List Fl) (hl : fs.length = us.length) :
    lossApply (some fs) us.length us = .ok (List.zipWith withLoss us fs) := by
  have hdiv : ∀ u f : Fl, Fl.div u (Fl.sub (some 1) f) = withLoss u f := by
    intro u f
    cases u with
    | none => cases f <;> rfl
    | some x =>
      cases f with
      | none => rfl
      | some y =>
        simp only [Fl.div, Fl.sub, withLoss, Option.bind_some, Option.map_some]
        by_cases hy : y = 1
        · simp [hy]
        · have : (1 : ℚ) - y ≠ 0 := fun h => hy (by linarith)
          simp [hy, this]
  have hzip : List.zipWith Fl.div us (fs.map (fun f => Fl.sub (some 1) f)) = List.zipWith withLoss us fs := by
    rw [List.zipWith_map_right]
    congr 1
    funext u f
    exact hdiv u f
  unfold lossApply
  rw [C23.lossValues_some _ _ hl]
  by_cases h : npAny fs = true
  · simp only [h, Bool.not_true, Bool.false_eq_true, if_false]
    unfold npOp
    rw [if_pos (by simp [hl]), hzip]
  · simp only [Bool.not_eq_true] at h
    simp only [h, Bool.not_false, if_true, Except.ok.injEq]
    rw [C23.npAny_false] at h
    apply List.ext_getElem (by simp [hl])
    intro i h1 h2
    rw [List.getElem_zipWith, h fs[i] (by simp)]
    cases us[i] <;> simp [withLoss]

/-- **C51, the consumer.** For models that follow each other without gaps and answer one value per period, the consumer has
an energy usage and a validity for each period asked for. In a period of a model the energy usage is that of the model,
raised by the loss factor; the period is valid exactly when the usage before losses is a number, and not negative where
negative usage is not allowed. In a period of no model the usage is zero, and valid. Power is reported exactly when
every model has it; then the same holds for it. -/
theorem C51_component (ps : Periods) (rs : List FunctionResult) (u : EUnit) (hne : rs ≠ []) (hps : ps.Nodup)
    (hu : ∀ r ∈ rs, r.usageUnit = u) (hl : ∀ r ∈ rs, r.usage.length = r.periods.length)
    (hp : ∀ r ∈ rs, ∀ p, r.power = some p → p.length = r.periods.length)
    (hf : ∀ r ∈ rs, ∀ f, r.loss = some f → f.length = r.periods.length)
    (hw : WF (rs.flatMap (·.periods))) (hsub : ∀ r ∈ rs, ∀ p ∈ r.periods, p ∈ ps) :
    ∃ c, component ps rs = .ok c ∧ c.usage.periods = ps ∧ c.valid.periods = ps ∧ c.usage.unit = u ∧
      (c.power = none ↔ ∃ r ∈ rs, r.power = none) ∧
      ∀ (k : Nat) (p : Period), ps[k]? = some p → ∃ v ok, c.usage.values[k]? = some v ∧ c.valid.values[k]? = some ok ∧
        (∀ r ∈ rs, p ∈ r.periods → ∃ i, r.periods[i]? = some p ∧ Delivered r.loss r.usage i v ∧
          (ok = true ↔ ∃ x, r.usage[i]? = some (some x) ∧ (r.allowNegative = true ∨ 0 ≤ x))) ∧
        ((∀ r ∈ rs, p ∉ r.periods) → v = some 0 ∧ ok = true) ∧
        ∀ w, c.power = some w → w.periods = ps ∧ ∃ v', w.values[k]? = some v' ∧
          (∀ r ∈ rs, p ∈ r.periods → ∃ i q, r.periods[i]? = some p ∧ r.power = some q ∧ Delivered r.loss q i v') ∧
          ((∀ r ∈ rs, p ∉ r.periods) → v' = some 0) := by
  -- the energy usage and power of each result
  have hE : ∀ r ∈ rs, ∃ us, r.energyUsage = .ok us ∧ us.length = r.periods.length ∧
      ∀ i v, us[i]? = some v → Delivered r.loss r.usage i v := by
    intro r hr
    unfold FunctionResult.energyUsage
    cases hL : r.loss with
    | none => exact ⟨r.usage, rfl, hl r hr, fun i v h => ⟨v, h, rfl⟩⟩
    | some f =>
      have h1 := hf r hr f hL
      have h2 := hl r hr
      refine ⟨_, loss_ok f r.usage (by omega), by simp; omega, ?_⟩
      intro i v h
      obtain ⟨a, b, h3, h4, h5⟩ := List.getElem?_zipWith_eq_some.1 h
      exact ⟨a, h3, b, h4, h5.symm⟩
  have hP : ∀ r ∈ rs, ∃ q, r.powerAfterLoss = .ok q ∧ (q = none ↔ r.power = none) ∧
      (∀ us, q = some us → us.length = r.periods.length) ∧
      ∀ us, q = some us → ∃ p, r.power = some p ∧ ∀ i v, us[i]? = some v → Delivered r.loss p i v := by
    intro r hr
    unfold FunctionResult.powerAfterLoss
    cases hq : r.power with
    | none => exact ⟨none, rfl, by simp, by simp, by simp⟩
    | some p =>
      have h2 := hp r hr p hq
      cases hL : r.loss with
      | none =>
        refine ⟨some p, rfl, by simp, ?_, ?_⟩
        · intro us e; simp only [Option.some.injEq] at e; subst e; exact h2
        · intro us e; simp only [Option.some.injEq] at e; subst e
          exact ⟨p, rfl, fun i v h => ⟨v, h, rfl⟩⟩
      | some f =>
        have h1 := hf r hr f hL
        refine ⟨some (List.zipWith withLoss p f), ?_, by simp, ?_, ?_⟩
        · simp only [loss_ok f p (by omega), Except.map]
        · intro us e; simp only [Option.some.injEq] at e; subst e; simp; omega
        · intro us e; simp only [Option.some.injEq] at e; subst e
          refine ⟨p, rfl, ?_⟩
          intro i v h
          obtain ⟨a, b, h3, h4, h5⟩ := List.getElem?_zipWith_eq_some.1 h
          exact ⟨a, h3, b, h4, h5.symm⟩
  -- all of them
  choose! E hE1 hE2 hE3 using hE
  choose! Q hQ1 hQ2 hQ3 hQ4 using hP
  have mU : ∀ l : List FunctionResult, (∀ r ∈ l, r ∈ rs) → (l.mapM fun r => do
      return (⟨r.periods, some (← r.energyUsage), some r.usageUnit⟩ : Part Fl)) =
      (.ok (l.map fun r => ⟨r.periods, some (E r), some r.usageUnit⟩) : Except Err (List (Part Fl))) := by
    intro l hlr
    refine C47.mapM_ok_of _ _ l ?_
    intro r hr
    simp only [hE1 r (hlr r hr), Bind.bind, Except.bind, Pure.pure, Except.pure]
  have mP : ∀ l : List FunctionResult, (∀ r ∈ l, r ∈ rs) → (l.mapM fun r => do
      return (⟨r.periods, ← r.powerAfterLoss, some .MEGA_WATT⟩ : Part Fl)) =
      (.ok (l.map fun r => ⟨r.periods, Q r, some .MEGA_WATT⟩) : Except Err (List (Part Fl))) := by
    intro l hlr
    refine C47.mapM_ok_of _ _ l ?_
    intro r hr
    simp only [hQ1 r (hlr r hr), Bind.bind, Except.bind, Pure.pure, Except.pure]
  -- concatenated
  have flat : ∀ {β : Type} (g : FunctionResult → Part β), (∀ r, (g r).periods = r.periods) →
      (rs.map g).flatMap (·.periods) = rs.flatMap (·.periods) := by
    intro β g hg
    rw [List.flatMap_map]
    simp only [hg]
  have hnod : (rs.flatMap (·.periods)).Nodup := C47.wf_nodup hw
  have run : ∀ {β : Type} (fill : β) (allow : Bool) (g : FunctionResult → Part β) (w : EUnit),
      (∀ r, (g r).periods = r.periods) → (∀ r ∈ rs, (g r).unit = some w) →
      (∀ r ∈ rs, ∀ vs, (g r).values = some vs → r.periods.length = vs.length) →
      (∀ r ∈ rs, (g r).values = none → allow = false) →
      ∃ s, concatenated fill allow ps (rs.map g) = .ok (some s) ∧ s.periods = ps ∧ s.values.length = ps.length ∧
        s.unit = w ∧ ∀ (k : Nat) (p : Period) (v : β), ps[k]? = some p → s.values[k]? = some v →
          (∀ r ∈ rs, p ∈ r.periods → Says fill (g r) p v) ∧ ((∀ r ∈ rs, p ∉ r.periods) → v = fill) := by
    intro β fill allow g w h1 h2 h3 h4
    obtain ⟨s, hs⟩ := C51_defined fill allow ps (rs.map g) w (by simpa using hne) hps
      (by intro x hx; obtain ⟨r, hr, rfl⟩ := List.mem_map.1 hx; exact h2 r hr)
      (by intro x hx; obtain ⟨r, hr, rfl⟩ := List.mem_map.1 hx; rw [h1]; exact h3 r hr)
      (by intro x hx; obtain ⟨r, hr, rfl⟩ := List.mem_map.1 hx; exact h4 r hr)
      (by rw [flat g h1]; exact hw)
      (by intro x hx; obtain ⟨r, hr, rfl⟩ := List.mem_map.1 hx; rw [h1]; exact hsub r hr)
    obtain ⟨b1, b2, b3, -, b5⟩ := C51_in_force fill allow ps (rs.map g) s hps (by rw [flat g h1]; exact hnod) hs
    refine ⟨s, hs, b1, b2, ?_, ?_⟩
    · obtain ⟨r, hr⟩ := List.exists_mem_of_ne_nil rs hne
      have := b3 (g r) (List.mem_map_of_mem hr)
      rw [h2 r hr] at this
      simpa using this.symm
    · intro k p v hk hv
      obtain ⟨c1, c2⟩ := b5 k p v hk hv
      refine ⟨fun r hr hp => c1 (g r) (List.mem_map_of_mem hr) (by rw [h1]; exact hp), fun hno => c2 ?_⟩
      intro x hx
      obtain ⟨r, hr, rfl⟩ := List.mem_map.1 hx
      rw [h1]
      exact hno r hr
  obtain ⟨sU, u1, u2, u3, u4, u5⟩ := run (some 0 : Fl) false (fun r => ⟨r.periods, some (E r), some r.usageUnit⟩) u
    (fun _ => rfl) (fun r hr => by simp only [hu r hr]) (fun r hr vs e => by
      simp only [Option.some.injEq] at e; subst e; exact (hE2 r hr).symm) (by simp)
  obtain ⟨sV, v1, v2, v3, -, v5⟩ := run true false (fun r => ⟨r.periods, some r.valid, some .NONE⟩) .NONE
    (fun _ => rfl) (fun r hr => rfl) (fun r hr vs e => by
      simp only [Option.some.injEq] at e; subst e
      simp [FunctionResult.valid, genericValid, hl r hr]) (by simp)
  have hpow : ∃ q, concatenated (some 0 : Fl) true ps (rs.map fun r => ⟨r.periods, Q r, some .MEGA_WATT⟩) = .ok q ∧
      (q = none ↔ ∃ r ∈ rs, r.power = none) ∧ ∀ w, q = some w → w.periods = ps ∧ w.values.length = ps.length ∧
        ∀ (k : Nat) (p : Period) (v : Fl), ps[k]? = some p → w.values[k]? = some v →
          (∀ r ∈ rs, p ∈ r.periods → Says (some 0) (⟨r.periods, Q r, some .MEGA_WATT⟩ : Part Fl) p v) ∧
          ((∀ r ∈ rs, p ∉ r.periods) → v = some 0) := by
    by_cases hm : ∃ r ∈ rs, r.power = none
    · refine ⟨none, ?_, by simp [hm], by simp⟩
      refine C51_missing (some 0) ps _ .MEGA_WATT ?_ ?_ ?_
      · intro x hx; obtain ⟨r, hr, rfl⟩ := List.mem_map.1 hx; rfl
      · intro x hx vs e; obtain ⟨r, hr, rfl⟩ := List.mem_map.1 hx; exact (hQ3 r hr vs e).symm
      · obtain ⟨r, hr, e⟩ := hm
        exact ⟨_, List.mem_map_of_mem hr, (hQ2 r hr).2 e⟩
    · obtain ⟨s, w1, w2, w3, -, w5⟩ := run (some 0 : Fl) true (fun r => ⟨r.periods, Q r, some .MEGA_WATT⟩) .MEGA_WATT
        (fun _ => rfl) (fun r hr => rfl) (fun r hr vs e => (hQ3 r hr vs e).symm) (fun r hr e => by
          exact absurd ⟨r, hr, (hQ2 r hr).1 e⟩ hm)
      refine ⟨some s, w1, by simpa using hm, ?_⟩
      intro w e
      simp only [Option.some.injEq] at e
      subst e
      exact ⟨w2, w3, w5⟩
  obtain ⟨q, q1, q2, q3⟩ := hpow
  refine ⟨⟨sU, q, sV⟩, ?_, u2, v2, u4, q2, ?_⟩
  · unfold component
    rw [mU rs (fun r hr => hr), mP rs (fun r hr => hr)]
    simp only [Bind.bind, Except.bind, u1, v1, q1, present, Pure.pure, Except.pure]
  · intro k p hk
    have hklt : k < ps.length := (List.getElem?_eq_some_iff.1 hk).1
    obtain ⟨v, hv⟩ : ∃ v, sU.values[k]? = some v := ⟨_, List.getElem?_eq_getElem (by omega)⟩
    obtain ⟨o, ho⟩ : ∃ o, sV.values[k]? = some o := ⟨_, List.getElem?_eq_getElem (by omega)⟩
    refine ⟨v, o, hv, ho, ?_, ?_, ?_⟩
    · intro r hr hpr
      obtain ⟨i, a1, a2⟩ := (u5 k p v hk hv).1 r hr hpr
      obtain ⟨j, b1, b2⟩ := (v5 k p o hk ho).1 r hr hpr
      simp only at a1 a2 b1 b2
      have hij : i = j := by
        have hnr : r.periods.Nodup := (List.nodup_flatMap.1 hnod).1 r hr
        exact (List.getElem?_inj (List.getElem?_eq_some_iff.1 a1).1 hnr).1 (a1.trans b1.symm)
      subst hij
      refine ⟨i, a1, hE3 r hr i v a2, ?_⟩
      simp only [FunctionResult.valid, genericValid, List.getElem?_map] at b2
      cases hx : r.usage[i]? with
      | none => rw [hx] at b2; simp at b2
      | some x =>
        rw [hx] at b2
        simp only [Option.map_some, Option.some.injEq] at b2
        cases x with
        | none => simp only at b2; subst b2; simp
        | some x => simp only at b2; subst b2; simp
    · intro hno
      exact ⟨(u5 k p v hk hv).2 hno, (v5 k p o hk ho).2 hno⟩
    · intro w hw'
      obtain ⟨w1, w2, w3⟩ := q3 w hw'
      obtain ⟨v', hv'⟩ : ∃ v', w.values[k]? = some v' := ⟨_, List.getElem?_eq_getElem (by omega)⟩
      refine ⟨w1, v', hv', ?_, ?_⟩
      · intro r hr hpr
        obtain ⟨i, a1, a2⟩ := (w3 k p v' hk hv').1 r hr hpr
        simp only at a1 a2
        cases hQr : Q r with
        | none =>
          exfalso
          have := q2.2 ⟨r, hr, (hQ2 r hr).1 hQr⟩
          rw [this] at hw'
          simp at hw'
        | some us =>
          rw [hQr] at a2
          obtain ⟨p', e1, e2⟩ := hQ4 r hr us hQr
          exact ⟨i, p', a1, e1, e2 i v' a2⟩
      · intro hno
        exact (w3 k p v' hk hv').2 hno

/-- **C51, direct consumers.** A consumer given a load uses that load as power, also when negative; one given a fuel rate uses
that fuel, reports no power and is invalid where the rate is negative. -/
theorem C51_direct (ps : Periods) (vs : List Fl) (fuel load : Option (Periods × List Fl)) (loss : Option (List Fl)) :
    (∃ r, direct .power fuel (some (ps, vs)) loss = .ok r ∧ r.usage = vs ∧ r.power = some vs ∧ r.usageUnit = .MEGA_WATT ∧
      r.periods = ps ∧ ∀ (i : Nat) (x : Fl), vs[i]? = some x → (r.valid[i]? = some true ↔ ∃ y, x = some y)) ∧
    (∃ r, direct .fuel (some (ps, vs)) load loss = .ok r ∧ r.usage = vs ∧ r.power = none ∧
      r.usageUnit = .STANDARD_CUBIC_METER_PER_DAY ∧ r.periods = ps ∧
      ∀ (i : Nat) (x : Fl), vs[i]? = some x → (r.valid[i]? = some true ↔ ∃ y, x = some y ∧ 0 ≤ y)) ∧
    direct .power fuel none loss = .error .typeError ∧ direct .fuel none load loss = .error .typeError := by
  refine ⟨⟨_, rfl, rfl, rfl, rfl, rfl, ?_⟩, ⟨_, rfl, rfl, rfl, rfl, rfl, ?_⟩, rfl, rfl⟩
  · intro i x hx
    simp only [FunctionResult.valid, genericValid, List.getElem?_map, hx, Option.map_some]
    cases x <;> simp
  · intro i x hx
    simp only [FunctionResult.valid, genericValid, List.getElem?_map, hx, Option.map_some]
    cases x <;> simp

/-- Finding: whether a period is valid is decided before the loss factor, so a period whose delivered usage is not a number
(a loss factor of one) is reported as valid. -/
theorem C51_valid_without_number : ∃ c, component [⟨0, 1⟩] [⟨[⟨0, 1⟩], [some 5], .MEGA_WATT, some [some 5], true, some [some 1]⟩]
    = .ok c ∧ c.usage.values = [none] ∧ c.valid.values = [true] := by
  refine ⟨⟨⟨[⟨0, 1⟩], [none], .MEGA_WATT⟩, some ⟨[⟨0, 1⟩], [none], .MEGA_WATT⟩, ⟨[⟨0, 1⟩], [true], .NONE⟩⟩, ?_, rfl, rfl⟩
  decide +kernel

/-- Non-vacuity: two models over four periods, the first period before both; the first model loses half. -/
example : component [⟨0, 1⟩, ⟨1, 2⟩, ⟨2, 3⟩, ⟨3, 4⟩]
    [⟨[⟨1, 2⟩], [some 3], .MEGA_WATT, some [some 3], true, some [some (1 / 2)]⟩,
     ⟨[⟨2, 3⟩, ⟨3, 4⟩], [none, some (-1)], .MEGA_WATT, some [none, some (-1)], false, none⟩]
    = .ok ⟨⟨[⟨0, 1⟩, ⟨1, 2⟩, ⟨2, 3⟩, ⟨3, 4⟩], [some 0, some 6, none, some (-1)], .MEGA_WATT⟩,
      some ⟨[⟨0, 1⟩, ⟨1, 2⟩, ⟨2, 3⟩, ⟨3, 4⟩], [some 0, some 6, none, some (-1)], .MEGA_WATT⟩,
      ⟨[⟨0, 1⟩, ⟨1, 2⟩, ⟨2, 3⟩, ⟨3, 4⟩], [true, true, false, false], .NONE⟩⟩ := by decide +kernel

/-- Non-vacuity: the operational settings of a consumer system, the last period without a system. -/
example : settingsUsed [⟨0, 1⟩, ⟨1, 2⟩, ⟨2, 3⟩] [⟨[⟨0, 1⟩, ⟨1, 2⟩], some [1, 0], some .NONE⟩]
    = .ok (some ⟨[⟨0, 1⟩, ⟨1, 2⟩, ⟨2, 3⟩], [2, 1, 0], .NONE⟩) := by decide +kernel

end Verif.C51
