import Mathlib.Data.List.Forall2
import Mathlib.Data.List.Nodup
import Mathlib.Tactic.Linarith
import Verif.Model.Rules

/-!
# C114: which installations the YAML schema lets through

A dict is taken as a model over time by its keys alone; of a field over time every value is validated and the last value
of an instant counts; and an installation passes exactly if it has something to report on, its generator sets mention
cables from shore only if they are some time supplied from shore, no consumer changes the type of its model, and no rate
has both a condition and conditions.
-/

namespace Verif.C114
open Verif.Rules

/-! ## Specification -/

/-- A key that stands for a date: a date, a date with a time, or a text that `strptime` reads. -/
def IsDate (c : Reading) : Key → Prop
  | .day _ => True
  | .moment _ => True
  | .text s => ';' ∉ s ∧ c.iso s = true
  | _ => False

/-- A key that stands for a period: a period, or a text that begins with two dates separated by a semicolon. -/
def IsPeriod (c : Reading) : Key → Prop
  | .period _ _ => True
  | .text s => ∃ a b rest, s = a ++ ';' :: (b ++ rest) ∧ ';' ∉ a ∧ ';' ∉ b ∧ (rest = [] ∨ ∃ r, rest = ';' :: r) ∧
      c.plain a = true ∧ c.plain b = true
  | _ => False

/-- The dict of keys is taken as a model over time. -/
def OverTime (c : Reading) (keys : List Key) : Prop :=
  keys ≠ [] ∧ ((∀ k ∈ keys, IsDate c k) ∨ ∀ k ∈ keys, IsPeriod c k)

/-- The keys are partly dates or periods. -/
def Mixed (c : Reading) (keys : List Key) : Prop :=
  Key.other ∉ keys ∧ (∃ k ∈ keys, IsDate c k ∨ IsPeriod c k) ∧ ¬ OverTime c keys

/-- No key is a date or a period, or anything but a text. -/
def Ordinary (c : Reading) (keys : List Key) : Prop :=
  Key.other ∉ keys ∧ ∀ k ∈ keys, ¬ IsDate c k ∧ ¬ IsPeriod c k

/-- The instant a key stands for. -/
inductive At (c : Reading) : Key → ℤ → Prop
  | day (n : ℤ) : At c (.day n) (n * (24 * 60 * 60 * 10 ^ 6))
  | moment (t : ℤ) : At c (.moment t) t
  | text (s : List Char) (t : ℤ) (h : c.parse s = some t) : At c (.text s) t

/-- The value `b` is what the last entry for the instant `t` says. -/
def Last {D β : Type} (c : Reading) (T : D → Option β) (es : List (Key × D)) (t : ℤ) (b : β) : Prop :=
  ∃ pre k v post, es = pre ++ (k, v) :: post ∧ At c k t ∧ T v = some b ∧ ∀ e ∈ post, ¬ At c e.1 t

/-- A character of a name. -/
def Allowed (c : Reading) (x : Char) : Prop :=
  ('A' ≤ x ∧ x ≤ 'Z') ∨ ('a' ≤ x ∧ x ≤ 'z') ∨ x ∈ ['Æ', 'Ø', 'Å', 'æ', 'ø', 'å', '_', '/', '-', ' '] ∨ c.digit x = true

/-- The values of a model over time. -/
def Value {β : Type} : Temporal β → β → Prop
  | .single a, b => b = a
  | .dates l, b => ∃ t, (t, b) ∈ l

/-- A consumer keeps the type of its model. -/
def OneType (m : Temporal String) : Prop := ∀ a b, Value m a → Value m b → a = b

/-- A generator set within the rules. -/
structure GoodSet {E : Type} (c : Reading) (g : GeneratorSet E) : Prop where
  name : ∀ x ∈ g.name, Allowed c x
  supplied : g.consumers ≠ []
  consumers : ∀ m ∈ g.consumers, OneType m
  cable : ∀ e, g.cableLoss = some e → Value g.category .powerFromShore
  usage : ∀ e, g.maxUsage = some e → Value g.category .powerFromShore

/-- A rate within the rules. -/
def GoodRate {E : Type} (r : Rate E) : Prop :=
  (r.condition = none ∧ r.conditions = none) ∨ (∃ e, r.condition = some e ∧ r.conditions = none) ∨
    ∃ e es, r.condition = none ∧ r.conditions = some (e :: es)

/-- An installation within the rules. -/
structure Good {E : Type} (c : Reading) (i : Installation E) : Prop where
  name : ∀ x ∈ i.name, Allowed c x
  sets : ∀ l, i.generatorSets = some l → ∀ g ∈ l, GoodSet c g
  fuel : ∀ l, i.fuelConsumers = some l → ∀ m ∈ l, OneType m
  emitters : ∀ l, i.emitters = some l → ∀ e ∈ l, (∀ x ∈ e.name, Allowed c x) ∧ ∀ r ∈ e.rates, GoodRate r
  something : (∃ g l, i.generatorSets = some (g :: l)) ∨ (∃ m l, i.fuelConsumers = some (m :: l)) ∨
    ∃ e l, i.emitters = some (e :: l)

/-! ## Texts split at semicolons -/

theorem split_nil : ([] : List Char).splitOn ';' = [[]] := by simp [List.splitOn]

theorem split_cons (x : Char) (s : List Char) :
    (x :: s).splitOn ';' = if x = ';' then [] :: s.splitOn ';' else (s.splitOn ';').modifyHead (x :: ·) := by
  simp only [List.splitOn, List.splitOnP_cons_eq_if_modifyHead, beq_iff_eq]

theorem split_head (s a : List Char) (l : List (List Char)) (h : s.splitOn ';' = a :: l) :
    ';' ∉ a ∧ ((l = [] ∧ s = a) ∨ ∃ s', s = a ++ ';' :: s' ∧ s'.splitOn ';' = l) := by
  induction s generalizing a l with
  | nil =>
    rw [split_nil] at h
    cases h
    exact ⟨by simp, Or.inl ⟨rfl, rfl⟩⟩
  | cons x s ih =>
    rw [split_cons] at h
    by_cases hx : x = ';'
    · rw [if_pos hx] at h
      cases h
      exact ⟨by simp, Or.inr ⟨s, by rw [hx]; rfl, rfl⟩⟩
    · rw [if_neg hx] at h
      rcases hs : s.splitOn ';' with _ | ⟨a', l'⟩
      · rw [hs] at h
        cases h
      · rw [hs] at h
        simp only [List.modifyHead_cons, List.cons.injEq] at h
        obtain ⟨rfl, rfl⟩ := h
        obtain ⟨h₁, h₂⟩ := ih a' l' hs
        refine ⟨by simp only [List.mem_cons, not_or]; exact ⟨fun h => hx h.symm, h₁⟩, ?_⟩
        rcases h₂ with ⟨rfl, rfl⟩ | ⟨s', rfl, h₃⟩
        · exact Or.inl ⟨rfl, rfl⟩
        · exact Or.inr ⟨s', rfl, h₃⟩

theorem split_alone (a : List Char) (h : ';' ∉ a) : a.splitOn ';' = [a] := by
  induction a with
  | nil => exact split_nil
  | cons x a ih =>
    simp only [List.mem_cons, not_or] at h
    rw [split_cons, if_neg (fun e => h.1 e.symm), ih h.2]
    rfl

theorem split_at (a s : List Char) (h : ';' ∉ a) : (a ++ ';' :: s).splitOn ';' = a :: s.splitOn ';' := by
  induction a with
  | nil =>
    show (';' :: s).splitOn ';' = _
    rw [split_cons, if_pos rfl]
  | cons x a ih =>
    simp only [List.mem_cons, not_or] at h
    show (x :: (a ++ ';' :: s)).splitOn ';' = _
    rw [split_cons, if_neg (fun e => h.1 e.symm), ih h.2]
    rfl

/-! ## Keys -/

theorem kind_date (c : Reading) (k : Key) : kindOf c k = .ok .date ↔ IsDate c k := by
  cases k with
  | day n => simp [kindOf, IsDate]
  | moment t => simp [kindOf, IsDate]
  | period a b => simp [kindOf, IsDate]
  | other => simp [kindOf, IsDate]
  | text s =>
    simp only [kindOf, IsDate]
    constructor
    · intro h
      rcases hs : s.splitOn ';' with _ | ⟨a, _ | ⟨b, l⟩⟩
      · rw [hs] at h; cases h
      · rw [hs] at h
        obtain ⟨h₁, h₂⟩ := split_head s a [] hs
        dsimp only at h
        by_cases hi : c.iso a = true
        · rcases h₂ with ⟨-, rfl⟩ | ⟨s', -, h₃⟩
          · exact ⟨h₁, hi⟩
          · rcases hs' : s'.splitOn ';' with _ | ⟨a', l'⟩
            · cases s' with
              | nil => rw [split_nil] at hs'; cases hs'
              | cons x s' =>
                rw [split_cons] at hs'
                by_cases hx : x = ';'
                · rw [if_pos hx] at hs'; cases hs'
                · rw [if_neg hx] at hs'
                  rcases hq : s'.splitOn ';' with _ | ⟨q, r⟩
                  · exact absurd hq (by simp [List.splitOn])
                  · rw [hq] at hs'; cases hs'
            · rw [hs'] at h₃; cases h₃
        · rw [if_neg hi] at h; cases h
      · rw [hs] at h
        dsimp only at h
        split at h <;> cases h
    · rintro ⟨h₁, h₂⟩
      rw [split_alone s h₁]
      dsimp only
      rw [if_pos h₂]

theorem split_ne (s : List Char) : s.splitOn ';' ≠ [] := by simp [List.splitOn]

theorem kind_period (c : Reading) (k : Key) : kindOf c k = .ok .period ↔ IsPeriod c k := by
  cases k with
  | day n => simp [kindOf, IsPeriod]
  | moment t => simp [kindOf, IsPeriod]
  | period a b => simp [kindOf, IsPeriod]
  | other => simp [kindOf, IsPeriod]
  | text s =>
    simp only [kindOf, IsPeriod]
    constructor
    · intro h
      rcases hs : s.splitOn ';' with _ | ⟨a, _ | ⟨b, l⟩⟩
      · rw [hs] at h; cases h
      · rw [hs] at h
        dsimp only at h
        split at h <;> cases h
      · rw [hs] at h
        dsimp only at h
        by_cases hi : (c.plain a && c.plain b) = true
        · obtain ⟨h₁, h₂⟩ := split_head s a (b :: l) hs
          rcases h₂ with ⟨h₂, -⟩ | ⟨s', rfl, h₃⟩
          · cases h₂
          · obtain ⟨h₄, h₅⟩ := split_head s' b l h₃
            rw [Bool.and_eq_true] at hi
            rcases h₅ with ⟨-, rfl⟩ | ⟨s'', rfl, -⟩
            · exact ⟨a, s', [], by rw [List.append_nil], h₁, h₄, Or.inl rfl, hi.1, hi.2⟩
            · exact ⟨a, b, ';' :: s'', rfl, h₁, h₄, Or.inr ⟨s'', rfl⟩, hi.1, hi.2⟩
        · rw [if_neg hi] at h; cases h
    · rintro ⟨a, b, rest, rfl, ha, hb, hr, h₁, h₂⟩
      rw [split_at a _ ha]
      have hb' : ∃ l, (b ++ rest).splitOn ';' = b :: l := by
        rcases hr with rfl | ⟨r, rfl⟩
        · exact ⟨[], by rw [List.append_nil]; exact split_alone b hb⟩
        · exact ⟨_, split_at b r hb⟩
      obtain ⟨l, hl⟩ := hb'
      rw [hl]
      dsimp only
      rw [h₁, h₂]
      rfl

theorem kind_other (c : Reading) (k : Key) (e : RErr) : kindOf c k = .error e ↔ e = .attributeError ∧ k = .other := by
  cases k with
  | day n => simp [kindOf]
  | moment t => simp [kindOf]
  | period a b => simp [kindOf]
  | other => simp only [kindOf, and_true]; exact ⟨fun h => (Except.error.inj h).symm, fun h => by rw [h]⟩
  | text s =>
    simp only [kindOf, reduceCtorEq, and_false, iff_false]
    rcases s.splitOn ';' with _ | ⟨a, _ | ⟨b, l⟩⟩ <;> simp

theorem date_not_period (c : Reading) (k : Key) (h : IsDate c k) : ¬ IsPeriod c k := by
  intro h'
  have h₁ := (kind_date c k).mpr h
  have h₂ := (kind_period c k).mpr h'
  rw [h₁] at h₂
  cases h₂

theorem kinds_ok (c : Reading) (keys : List Key) (h : Key.other ∉ keys) :
    ∃ ks, keys.mapM (kindOf c) = .ok ks ∧ List.Forall₂ (fun k d => kindOf c k = .ok d) keys ks := by
  induction keys with
  | nil => exact ⟨[], rfl, .nil⟩
  | cons k keys ih =>
    simp only [List.mem_cons, not_or] at h
    obtain ⟨ks, h₁, h₂⟩ := ih h.2
    rcases hk : kindOf c k with e | d
    · exact absurd ((kind_other c k e).mp hk).2.symm h.1
    · refine ⟨d :: ks, ?_, .cons hk h₂⟩
      rw [List.mapM_cons, hk, h₁]
      rfl

theorem kinds_error (c : Reading) (keys : List Key) (h : Key.other ∈ keys) :
    keys.mapM (kindOf c) = .error .attributeError := by
  induction keys with
  | nil => cases h
  | cons k keys ih =>
    rw [List.mapM_cons]
    rcases hk : kindOf c k with e | d
    · rw [((kind_other c k e).mp hk).1]
      rfl
    · rcases List.mem_cons.mp h with h' | h'
      · rw [← h'] at hk
        cases hk
      · rw [ih h']
        rfl

theorem any_kind (c : Reading) (keys : List Key) (ks : List Kind) (d : Kind)
    (h : List.Forall₂ (fun k d => kindOf c k = .ok d) keys ks) :
    ks.any (· = d) = true ↔ ∃ k ∈ keys, kindOf c k = .ok d := by
  induction h with
  | nil => simp
  | @cons k d' keys ks h₁ _ ih =>
    rw [List.any_cons, Bool.or_eq_true, ih]
    simp only [List.mem_cons, exists_eq_or_imp, h₁, decide_eq_true_eq, Except.ok.injEq]

theorem all_kind (c : Reading) (keys : List Key) (ks : List Kind) (d : Kind)
    (h : List.Forall₂ (fun k d => kindOf c k = .ok d) keys ks) :
    ks.all (· = d) = true ↔ ∀ k ∈ keys, kindOf c k = .ok d := by
  induction h with
  | nil => simp
  | @cons k d' keys ks h₁ _ ih =>
    rw [List.all_cons, Bool.and_eq_true, ih]
    simp only [List.mem_cons, forall_eq_or_imp, h₁, decide_eq_true_eq, Except.ok.injEq]

/-- The outcome of `is_temporal_model` by cases. -/
theorem outcome (c : Reading) (keys : List Key) :
    (OverTime c keys ∧ isTemporal c keys = .ok true) ∨ (Mixed c keys ∧ isTemporal c keys = .error .invalidDate) ∨
      (Ordinary c keys ∧ isTemporal c keys = .ok false) ∨
      (Key.other ∈ keys ∧ isTemporal c keys = .error .attributeError) := by
  by_cases ho : Key.other ∈ keys
  · refine Or.inr (Or.inr (Or.inr ⟨ho, ?_⟩))
    rw [isTemporal, kinds_error c keys ho]
    rfl
  obtain ⟨ks, h₁, h₂⟩ := kinds_ok c keys ho
  have hred : isTemporal c keys = (if ks.any (· = .date) then
      if ks.all (· = .date) then Except.ok true else .error .invalidDate
    else if ks.any (· = .period) then
      if ks.all (· = .period) then .ok true else .error .invalidDate
    else .ok false) := by
    rw [isTemporal, h₁]
    rfl
  have hany := any_kind c keys ks
  have hall := all_kind c keys ks
  by_cases hd : ks.any (· = Kind.date) = true
  · obtain ⟨k, hk, hkd⟩ := (hany .date h₂).mp hd
    have hkd' := (kind_date c k).mp hkd
    by_cases ha : ks.all (· = Kind.date) = true
    · refine Or.inl ⟨⟨(fun h => by rw [h] at hk; cases hk), Or.inl fun k hk => (kind_date c k).mp ((hall .date h₂).mp ha k hk)⟩, ?_⟩
      rw [hred, if_pos hd, if_pos ha]
    · refine Or.inr (Or.inl ⟨⟨ho, ⟨k, hk, Or.inl hkd'⟩, ?_⟩, ?_⟩)
      · rintro ⟨-, h | h⟩
        · exact ha ((hall .date h₂).mpr fun k hk => (kind_date c k).mpr (h k hk))
        · exact date_not_period c k hkd' (h k hk)
      · rw [hred, if_pos hd, if_neg ha]
  · have hnd : ∀ k ∈ keys, ¬ IsDate c k := fun k hk h => hd ((hany .date h₂).mpr ⟨k, hk, (kind_date c k).mpr h⟩)
    by_cases hp : ks.any (· = Kind.period) = true
    · obtain ⟨k, hk, hkp⟩ := (hany .period h₂).mp hp
      have hkp' := (kind_period c k).mp hkp
      by_cases ha : ks.all (· = Kind.period) = true
      · refine Or.inl ⟨⟨(fun h => by rw [h] at hk; cases hk),
          Or.inr fun k hk => (kind_period c k).mp ((hall .period h₂).mp ha k hk)⟩, ?_⟩
        rw [hred, if_neg hd, if_pos hp, if_pos ha]
      · refine Or.inr (Or.inl ⟨⟨ho, ⟨k, hk, Or.inr hkp'⟩, ?_⟩, ?_⟩)
        · rintro ⟨-, h | h⟩
          · exact hnd k hk (h k hk)
          · exact ha ((hall .period h₂).mpr fun k hk => (kind_period c k).mpr (h k hk))
        · rw [hred, if_neg hd, if_pos hp, if_neg ha]
    · refine Or.inr (Or.inr (Or.inl ⟨⟨ho, fun k hk => ⟨hnd k hk, fun h =>
        hp ((hany .period h₂).mpr ⟨k, hk, (kind_period c k).mpr h⟩)⟩⟩, ?_⟩))
      rw [hred, if_neg hd, if_neg hp]

theorem over_other (c : Reading) (keys : List Key) (h : OverTime c keys) : Key.other ∉ keys := by
  intro ho
  rcases h.2 with h | h
  · exact h _ ho
  · exact h _ ho

theorem over_ordinary (c : Reading) (keys : List Key) (h : OverTime c keys) : ¬ Ordinary c keys := by
  intro ho
  rcases keys with _ | ⟨k, keys⟩
  · exact h.1 rfl
  · rcases h.2 with h | h
    · exact (ho.2 k List.mem_cons_self).1 (h k List.mem_cons_self)
    · exact (ho.2 k List.mem_cons_self).2 (h k List.mem_cons_self)

theorem mixed_ordinary (c : Reading) (keys : List Key) (h : Mixed c keys) : ¬ Ordinary c keys := by
  intro ho
  obtain ⟨k, hk, h' | h'⟩ := h.2.1
  · exact (ho.2 k hk).1 h'
  · exact (ho.2 k hk).2 h'

/-! ## Recognising models over time -/

/-- A dict is a model over time exactly if it has a key and all keys are dates, or all are periods; it is refused exactly if
only some are; it is ordinary exactly if none is. -/
theorem C114_recognised (c : Reading) (keys : List Key) :
    (isTemporal c keys = .ok true ↔ OverTime c keys) ∧ (isTemporal c keys = .error .invalidDate ↔ Mixed c keys) ∧
      (isTemporal c keys = .ok false ↔ Ordinary c keys) := by
  rcases outcome c keys with ⟨h, e⟩ | ⟨h, e⟩ | ⟨h, e⟩ | ⟨h, e⟩
  · rw [e]
    refine ⟨⟨fun _ => h, fun _ => rfl⟩, ⟨(fun h' => by cases h'), fun h' => absurd h h'.2.2⟩,
      ⟨(fun h' => by cases h'), fun h' => absurd h' (over_ordinary c keys h)⟩⟩
  · rw [e]
    refine ⟨⟨(fun h' => by cases h'), fun h' => absurd h' h.2.2⟩, ⟨fun _ => h, fun _ => rfl⟩,
      ⟨(fun h' => by cases h'), fun h' => absurd h' (mixed_ordinary c keys h)⟩⟩
  · rw [e]
    refine ⟨⟨(fun h' => by cases h'), fun h' => absurd h (over_ordinary c keys h')⟩,
      ⟨(fun h' => by cases h'), fun h' => absurd h (mixed_ordinary c keys h')⟩, ⟨fun _ => h, fun _ => rfl⟩⟩
  · rw [e]
    exact ⟨⟨(fun h' => by cases h'), fun h' => absurd h (over_other c keys h')⟩,
      ⟨(fun h' => by cases h'), fun h' => absurd h h'.1⟩, ⟨(fun h' => by cases h'), fun h' => absurd h h'.1⟩⟩

/-! ## Filling a dict -/

theorem mem_set {κ β : Type} [DecidableEq κ] (t t' : κ) (b b' : β) (acc : List (κ × β)) (h : (acc.map (·.1)).Nodup) :
    (t', b') ∈ Verif.Time.dictSet t b acc ↔ (t' = t ∧ b' = b) ∨ (t' ≠ t ∧ (t', b') ∈ acc) := by
  induction acc with
  | nil => simp [Verif.Time.dictSet]
  | cons x acc ih =>
    obtain ⟨u, v⟩ := x
    simp only [List.map_cons, List.nodup_cons, List.mem_map, not_exists, not_and] at h
    rw [Verif.Time.dictSet]
    by_cases hu : u = t
    · rw [if_pos hu]
      subst hu
      simp only [List.mem_cons, Prod.mk.injEq]
      constructor
      · rintro (h' | h')
        · exact Or.inl h'
        · exact Or.inr ⟨fun e => h.1 _ h' (by rw [e]), Or.inr h'⟩
      · rintro (h' | ⟨h₁, h' | h'⟩)
        · exact Or.inl h'
        · exact absurd h'.1 h₁
        · exact Or.inr h'
    · rw [if_neg hu]
      simp only [List.mem_cons, Prod.mk.injEq, ih h.2]
      constructor
      · rintro (h' | h' | h')
        · exact Or.inr ⟨fun e => hu (by rw [← h'.1, e]), Or.inl h'⟩
        · exact Or.inl h'
        · exact Or.inr ⟨h'.1, Or.inr h'.2⟩
      · rintro (h' | ⟨h₁, h' | h'⟩)
        · exact Or.inr (Or.inl h')
        · exact Or.inl h'
        · exact Or.inr (Or.inr ⟨h₁, h'⟩)

theorem keys_set {κ β : Type} [DecidableEq κ] (t t' : κ) (b : β) (acc : List (κ × β)) :
    t' ∈ (Verif.Time.dictSet t b acc).map (·.1) ↔ t' = t ∨ t' ∈ acc.map (·.1) := by
  induction acc with
  | nil => simp [Verif.Time.dictSet]
  | cons x acc ih =>
    obtain ⟨u, v⟩ := x
    rw [Verif.Time.dictSet]
    by_cases hu : u = t
    · rw [if_pos hu]
      subst hu
      simp only [List.map_cons, List.mem_cons]
      exact ⟨fun h => h.elim Or.inl fun h => Or.inr (Or.inr h), fun h => h.elim Or.inl id⟩
    · rw [if_neg hu, List.map_cons, List.mem_cons, ih, List.map_cons, List.mem_cons]
      exact ⟨fun h => h.elim (fun h => Or.inr (Or.inl h)) fun h => h.elim Or.inl fun h => Or.inr (Or.inr h),
        fun h => h.elim (fun h => Or.inr (Or.inl h)) fun h => h.elim Or.inl fun h => Or.inr (Or.inr h)⟩

theorem nodup_set {κ β : Type} [DecidableEq κ] (t : κ) (b : β) (acc : List (κ × β)) (h : (acc.map (·.1)).Nodup) :
    ((Verif.Time.dictSet t b acc).map (·.1)).Nodup := by
  induction acc with
  | nil => simp [Verif.Time.dictSet]
  | cons x acc ih =>
    obtain ⟨u, v⟩ := x
    rw [Verif.Time.dictSet]
    by_cases hu : u = t
    · rw [if_pos hu]
      exact h
    · rw [if_neg hu, List.map_cons]
      rw [List.map_cons, List.nodup_cons] at h
      refine List.nodup_cons.mpr ⟨?_, ih h.2⟩
      rw [keys_set]
      rintro (h' | h')
      · exact hu h'
      · exact h.1 h'

/-- Some element with what follows it. -/
def Split {α : Type} (P : α → List α → Prop) (l : List α) : Prop := ∃ pre x post, l = pre ++ x :: post ∧ P x post

theorem split_iff {α : Type} (P : α → List α → Prop) (a : α) (l : List α) : Split P (a :: l) ↔ P a l ∨ Split P l := by
  constructor
  · rintro ⟨pre, x, post, h, hp⟩
    rcases pre with _ | ⟨p, pre⟩
    · cases h
      exact Or.inl hp
    · cases h
      exact Or.inr ⟨pre, x, post, rfl, hp⟩
  · rintro (h | ⟨pre, x, post, rfl, hp⟩)
    · exact ⟨[], a, l, rfl, h⟩
    · exact ⟨a :: pre, x, post, rfl, hp⟩

theorem split_none {α : Type} (P : α → List α → Prop) : ¬ Split P [] := by
  rintro ⟨pre, x, post, h, -⟩
  rcases pre with _ | ⟨p, pre⟩ <;> cases h

/-- The last entry of a list for a key. -/
def Final {κ β : Type} (t : κ) (b : β) : List (κ × β) → Prop := Split fun x post => x = (t, b) ∧ ∀ e ∈ post, e.1 ≠ t

theorem fold_spec {κ β : Type} [DecidableEq κ] (l acc : List (κ × β)) (h : (acc.map (·.1)).Nodup) :
    ((l.foldl (fun acc e => Verif.Time.dictSet e.1 e.2 acc) acc).map (·.1)).Nodup ∧
      ∀ t b, (t, b) ∈ l.foldl (fun acc e => Verif.Time.dictSet e.1 e.2 acc) acc ↔
        Final t b l ∨ ((t, b) ∈ acc ∧ ∀ e ∈ l, e.1 ≠ t) := by
  induction l generalizing acc with
  | nil =>
    refine ⟨h, fun t b => ?_⟩
    simp only [List.foldl_nil, List.not_mem_nil, false_implies, implies_true, and_true]
    exact ⟨Or.inr, fun h => h.elim (fun h => absurd h (split_none _)) id⟩
  | cons x l ih =>
    obtain ⟨u, v⟩ := x
    obtain ⟨h₁, h₂⟩ := ih _ (nodup_set u v acc h)
    refine ⟨h₁, fun t b => ?_⟩
    rw [List.foldl_cons, h₂, Final, split_iff, mem_set u t v b acc h]
    simp only [List.mem_cons, forall_eq_or_imp, Prod.mk.injEq]
    constructor
    · rintro (h' | ⟨⟨rfl, rfl⟩ | ⟨h₃, h₄⟩, h'⟩)
      · exact Or.inl (Or.inr h')
      · exact Or.inl (Or.inl ⟨⟨rfl, rfl⟩, h'⟩)
      · exact Or.inr ⟨h₄, fun e => h₃ e.symm, h'⟩
    · rintro ((⟨⟨rfl, rfl⟩, h'⟩ | h') | ⟨h₃, h₄, h'⟩)
      · exact Or.inr ⟨Or.inl ⟨rfl, rfl⟩, h'⟩
      · exact Or.inl h'
      · exact Or.inr ⟨Or.inr ⟨fun e => h₄ e.symm, h₃⟩, h'⟩

theorem fill_spec {β : Type} (l : List (ℤ × β)) :
    ((fill l).map (·.1)).Nodup ∧ ∀ t b, (t, b) ∈ fill l ↔ Final t b l := by
  obtain ⟨h₁, h₂⟩ := fold_spec l [] List.nodup_nil
  refine ⟨h₁, fun t b => ?_⟩
  rw [fill, h₂]
  simp

theorem set_new {κ β : Type} [DecidableEq κ] (t : κ) (b : β) (acc : List (κ × β)) (h : t ∉ acc.map (·.1)) :
    Verif.Time.dictSet t b acc = acc ++ [(t, b)] := by
  induction acc with
  | nil => rfl
  | cons x acc ih =>
    obtain ⟨u, v⟩ := x
    simp only [List.map_cons, List.mem_cons, not_or] at h
    rw [Verif.Time.dictSet, if_neg (fun e => h.1 e.symm), ih h.2]
    rfl

theorem fold_new {κ β : Type} [DecidableEq κ] (l acc : List (κ × β)) (h : ((acc ++ l).map (·.1)).Nodup) :
    l.foldl (fun acc e => Verif.Time.dictSet e.1 e.2 acc) acc = acc ++ l := by
  induction l generalizing acc with
  | nil => simp
  | cons x l ih =>
    obtain ⟨u, v⟩ := x
    rw [List.foldl_cons, set_new u v acc, ih]
    · rw [List.append_assoc]; rfl
    · rw [List.append_assoc]; exact h
    · intro hm
      rw [List.map_append, List.nodup_append] at h
      exact h.2.2 u hm u (by simp) rfl

theorem fill_new {β : Type} (l : List (ℤ × β)) (h : (l.map (·.1)).Nodup) : fill l = l := fold_new l [] h

/-! ## Entries -/

theorem at_iff (c : Reading) (k : Key) (t : ℤ) : At c k t ↔ instant c k = some t := by
  constructor
  · rintro (⟨n⟩ | ⟨t⟩ | ⟨s, t, h⟩)
    · show some (n * 86400000000) = some _
      norm_num
    · rfl
    · exact h
  · intro h
    cases k with
    | day n =>
      have h := Option.some.inj h
      subst h
      have := At.day (c := c) n
      norm_num at this
      exact this
    | moment t' =>
      have h := Option.some.inj h
      subst h
      exact .moment _
    | period a b => cases h
    | other => cases h
    | text s => exact .text s t h

theorem entry_iff {D β : Type} (c : Reading) (T : D → Option β) (e : Key × D) (x : ℤ × β) :
    readEntry c T e = .ok x ↔ At c e.1 x.1 ∧ T e.2 = some x.2 := by
  obtain ⟨t, b⟩ := x
  rw [at_iff, readEntry]
  rcases instant c e.1 with _ | t' <;> rcases T e.2 with _ | b' <;> simp

theorem read_ok {D β : Type} (c : Reading) (T : D → Option β) (es : List (Key × D)) (l : List (ℤ × β)) :
    es.mapM (readEntry c T) = .ok l ↔ List.Forall₂ (fun e x => At c e.1 x.1 ∧ T e.2 = some x.2) es l := by
  induction es generalizing l with
  | nil =>
    constructor
    · intro h
      cases h
      exact .nil
    · intro h
      cases h
      rfl
  | cons e es ih =>
    rw [List.mapM_cons]
    constructor
    · intro h
      rcases he : readEntry c T e with er | x
      · rw [he] at h
        cases h
      · rw [he] at h
        rcases hes : es.mapM (readEntry c T) with er | xs
        · rw [hes] at h
          cases h
        · rw [hes] at h
          have h := Except.ok.inj h
          subst h
          exact .cons ((entry_iff c T e x).mp he) ((ih xs).mp hes)
    · intro h
      cases h with
      | cons h₁ h₂ =>
        rw [(entry_iff c T e _).mpr h₁, (ih _).mpr h₂]
        rfl

theorem last_iff {D β : Type} (c : Reading) (T : D → Option β) (es : List (Key × D)) (l : List (ℤ × β))
    (h : List.Forall₂ (fun e x => At c e.1 x.1 ∧ T e.2 = some x.2) es l) (t : ℤ) (b : β) :
    Final t b l ↔ Last c T es t b := by
  have hl : ∀ es : List (Key × D), Last c T es t b ↔
      Split (fun (x : Key × D) post => At c x.1 t ∧ T x.2 = some b ∧ ∀ e ∈ post, ¬ At c e.1 t) es := by
    intro es
    constructor
    · rintro ⟨pre, k, v, post, h, h'⟩
      exact ⟨pre, (k, v), post, h, h'⟩
    · rintro ⟨pre, x, post, h, h'⟩
      exact ⟨pre, x.1, x.2, post, h, h'⟩
  rw [hl]
  induction h with
  | nil => exact ⟨fun h => absurd h (split_none _), fun h => absurd h (split_none _)⟩
  | @cons e x es l h₁ h₂ ih =>
    rw [Final, split_iff, split_iff]
    refine or_congr ?_ ih
    have hu : ∀ {k : Key} {a a' : ℤ}, At c k a → At c k a' → a = a' := by
      intro k a a' h h'
      rw [at_iff] at h h'
      rw [h] at h'
      exact Option.some.inj h'
    have hall : (∀ y ∈ l, y.1 ≠ t) ↔ ∀ e ∈ es, ¬ At c e.1 t := by
      clear ih h₁
      induction h₂ with
      | nil => simp
      | @cons e x es l h₁ h₂ ih =>
        simp only [List.mem_cons, forall_eq_or_imp, ih]
        have : x.1 ≠ t ↔ ¬ At c e.1 t := by
          constructor
          · intro h h'
            exact h (hu h₁.1 h')
          · intro h h'
            exact h (h' ▸ h₁.1)
        rw [this]
    have hx : x = (t, b) ↔ At c e.1 t ∧ T e.2 = some b := by
      obtain ⟨u, v⟩ := x
      constructor
      · intro h
        cases h
        exact h₁
      · rintro ⟨h₃, h₄⟩
        have h₅ : u = t := hu h₁.1 h₃
        rw [h₁.2] at h₄
        have h₆ : v = b := Option.some.inj h₄
        rw [h₅, h₆]
    rw [hx, hall, and_assoc]

/-! ## Fields over time -/

theorem temporal_ok {D β : Type} (c : Reading) (T : D → Option β) (es : List (Key × D)) (m : Temporal β) :
    readTemporal c T es = .ok m ↔ ∃ l, es.mapM (readEntry c T) = .ok l ∧ m = .dates (fill l) := by
  rw [readTemporal]
  rcases es.mapM (readEntry c T) with e | l
  · exact ⟨(fun h => by cases h), (fun ⟨l, h, _⟩ => by cases h)⟩
  · constructor
    · intro h
      exact ⟨l, rfl, (Except.ok.inj h).symm⟩
    · rintro ⟨l', h, rfl⟩
      cases h
      rfl

theorem single_ok {D β : Type} (T : D → Option β) (d : D) (m : Temporal β) :
    readSingle T d = .ok m ↔ ∃ b, T d = some b ∧ m = .single b := by
  rw [readSingle]
  rcases T d with _ | b
  · simp
  · simp only [Except.ok.injEq, Option.some.injEq]
    constructor
    · intro h
      exact ⟨b, rfl, h.symm⟩
    · rintro ⟨b', rfl, rfl⟩
      rfl

theorem field_ok {D β : Type} (c : Reading) (asDict : D → Option (List (Key × D))) (T : D → Option β) (d : D)
    (m : Temporal β) : readField c asDict T d = .ok m ↔
      ((asDict d = none ∨ ∃ es, asDict d = some es ∧ Ordinary c (es.map (·.1))) ∧ readSingle T d = .ok m) ∨
      ∃ es, asDict d = some es ∧ (OverTime c (es.map (·.1)) ∨ Mixed c (es.map (·.1))) ∧ readTemporal c T es = .ok m := by
  rw [readField]
  rcases hd : asDict d with _ | es
  · simp
  · dsimp only
    rcases outcome c (es.map (·.1)) with ⟨h, e⟩ | ⟨h, e⟩ | ⟨h, e⟩ | ⟨h, e⟩
    · rw [e]
      have := over_ordinary c _ h
      simp [h, this]
    · rw [e]
      have := mixed_ordinary c _ h
      simp [h, this]
    · rw [e]
      have h₁ : ¬ OverTime c (es.map (·.1)) := fun h' => over_ordinary c _ h' h
      have h₂ : ¬ Mixed c (es.map (·.1)) := fun h' => mixed_ordinary c _ h' h
      simp [h, h₁, h₂]
    · rw [e]
      have h₁ : ¬ OverTime c (es.map (·.1)) := fun h' => over_other c _ h' h
      have h₂ : ¬ Mixed c (es.map (·.1)) := fun h' => h'.1 h
      have h₃ : ¬ Ordinary c (es.map (·.1)) := fun h' => h'.1 h
      simp [h₁, h₂, h₃]

/-- A field is read as one value exactly if it is not a dict, or a dict without a date or a period among its keys, and is
valid as such. -/
theorem C114_single {D β : Type} (c : Reading) (asDict : D → Option (List (Key × D))) (T : D → Option β) (d : D) (b : β) :
    readField c asDict T d = .ok (.single b) ↔
      T d = some b ∧ (asDict d = none ∨ ∃ es, asDict d = some es ∧ Ordinary c (es.map (·.1))) := by
  rw [field_ok, single_ok]
  constructor
  · rintro (⟨h, b', h₁, h₂⟩ | ⟨es, -, -, h⟩)
    · cases h₂
      exact ⟨h₁, h⟩
    · obtain ⟨l, -, h⟩ := (temporal_ok c T es _).mp h
      cases h
  · rintro ⟨h₁, h₂⟩
    exact Or.inl ⟨h₂, b, h₁, rfl⟩

/-- A field read as values over time: it is a dict with a date or a period among its keys; each key is an instant and each
value is valid; no instant comes twice; and an instant has the value its last entry gives. -/
theorem C114_over_time {D β : Type} (c : Reading) (asDict : D → Option (List (Key × D))) (T : D → Option β) (d : D)
    (l : List (ℤ × β)) (h : readField c asDict T d = .ok (.dates l)) :
    ∃ es, asDict d = some es ∧ (∃ e ∈ es, IsDate c e.1 ∨ IsPeriod c e.1) ∧ (∀ e ∈ es, ∃ t b, At c e.1 t ∧ T e.2 = some b) ∧
      (l.map (·.1)).Nodup ∧ ∀ t b, (t, b) ∈ l ↔ Last c T es t b := by
  rcases (field_ok c asDict T d _).mp h with ⟨-, h'⟩ | ⟨es, h₁, h₂, h₃⟩
  · obtain ⟨b, -, h⟩ := (single_ok T d _).mp h'
    cases h
  · obtain ⟨l', h₄, h₅⟩ := (temporal_ok c T es _).mp h₃
    cases h₅
    have h₆ := (read_ok c T es l').mp h₄
    refine ⟨es, h₁, ?_, ?_, (fill_spec l').1, fun t b => ((fill_spec l').2 t b).trans (last_iff c T es l' h₆ t b)⟩
    · rcases h₂ with h₂ | h₂
      · rcases es with _ | ⟨e, es⟩
        · exact absurd rfl h₂.1
        · refine ⟨e, List.mem_cons_self, ?_⟩
          rcases h₂.2 with h | h
          · exact Or.inl (h e.1 (by simp))
          · exact Or.inr (h e.1 (by simp))
      · obtain ⟨k, hk, h⟩ := h₂.2.1
        obtain ⟨e, he, rfl⟩ := List.mem_map.mp hk
        exact ⟨e, he, h⟩
    · clear h₁ h₂ h₃ h₄ h
      induction h₆ with
      | nil => simp
      | @cons e x es l h₁ _ ih =>
        intro e' he'
        rcases List.mem_cons.mp he' with rfl | he'
        · exact ⟨x.1, x.2, h₁⟩
        · exact ih e' he'

/-- Dates with valid values are read, in the order of the document and each with its own value if no two stand for the same
instant. -/
theorem C114_dates {D β : Type} (c : Reading) (asDict : D → Option (List (Key × D))) (T : D → Option β) (d : D)
    (es : List (Key × D)) (l : List (ℤ × β)) (hd : asDict d = some es) (hne : es ≠ []) (hk : ∀ e ∈ es, IsDate c e.1)
    (hl : List.Forall₂ (fun e x => At c e.1 x.1 ∧ T e.2 = some x.2) es l) :
    (∃ l', readField c asDict T d = .ok (.dates l')) ∧
      ((l.map (·.1)).Nodup → readField c asDict T d = .ok (.dates l)) := by
  have ho : OverTime c (es.map (·.1)) := by
    refine ⟨fun h => hne (List.map_eq_nil_iff.mp h), Or.inl fun k hk' => ?_⟩
    obtain ⟨e, he, rfl⟩ := List.mem_map.mp hk'
    exact hk e he
  have hr : readField c asDict T d = .ok (.dates (fill l)) := by
    refine (field_ok c asDict T d _).mpr (Or.inr ⟨es, hd, Or.inl ho, ?_⟩)
    exact (temporal_ok c T es _).mpr ⟨l, (read_ok c T es l).mpr hl, rfl⟩
  refine ⟨⟨_, hr⟩, fun h => ?_⟩
  rw [hr, fill_new l h]

/-- FINDING: a date and its midnight are two keys of a document but one instant: the first of the two values is dropped
without a word. -/
theorem C114_same_instant {D β : Type} (c : Reading) (asDict : D → Option (List (Key × D))) (T : D → Option β) (d v w : D)
    (n : ℤ) (b b' : β) (hd : asDict d = some [(.day n, v), (.moment (n * (24 * 60 * 60 * 10 ^ 6)), w)])
    (hv : T v = some b) (hw : T w = some b') :
    readField c asDict T d = .ok (.dates [(n * (24 * 60 * 60 * 10 ^ 6), b')]) := by
  refine (field_ok c asDict T d _).mpr (Or.inr ⟨_, hd, Or.inl ⟨by simp, Or.inl ?_⟩, ?_⟩)
  · intro k hk
    simp only [List.map_cons, List.map_nil, List.mem_cons, List.not_mem_nil, or_false] at hk
    rcases hk with rfl | rfl <;> trivial
  · refine (temporal_ok c T _ _).mpr ⟨[(n * (24 * 60 * 60 * 10 ^ 6), b), (n * (24 * 60 * 60 * 10 ^ 6), b')], ?_, ?_⟩
    · exact (read_ok c T _ _).mpr (.cons ⟨.day n, hv⟩ (.cons ⟨.moment _, hw⟩ .nil))
    · simp [fill, Verif.Time.dictSet]

/-- FINDING: a dict with a key that is not a text, like the year 2020, ends with an `AttributeError`, whatever else it
holds. -/
theorem C114_number_key {D β : Type} (c : Reading) (asDict : D → Option (List (Key × D))) (T : D → Option β) (d : D)
    (es : List (Key × D)) (hd : asDict d = some es) (h : Key.other ∈ es.map (·.1)) :
    readField c asDict T d = .error .attributeError := by
  rw [readField, hd]
  dsimp only
  rw [isTemporal, kinds_error c _ h]
  rfl

/-- What is refused is refused with a validation error, unless a key is no text, date or period. -/
theorem C114_refused {D β : Type} (c : Reading) (asDict : D → Option (List (Key × D))) (T : D → Option β) (d : D) (e : RErr)
    (hk : ∀ es, asDict d = some es → Key.other ∉ es.map (·.1)) (h : readField c asDict T d = .error e) :
    e = .validation := by
  have hs : ∀ {e}, readSingle T d = .error e → e = .validation := by
    intro e h
    rw [readSingle] at h
    cases hT : T d with
    | none => rw [hT] at h; exact (Except.error.inj h).symm
    | some b => rw [hT] at h; cases h
  have hm : ∀ (es : List (Key × D)) {e}, es.mapM (readEntry c T) = .error e → e = .validation := by
    intro es
    induction es with
    | nil => intro e h; cases h
    | cons x es ih =>
      intro e h
      rw [List.mapM_cons] at h
      cases hx : readEntry c T x with
      | error e' =>
        rw [hx] at h
        have h' : e' = e := Except.error.inj h
        subst h'
        rw [readEntry] at hx
        split at hx
        · cases hx
        · exact (Except.error.inj hx).symm
      | ok y =>
        rw [hx] at h
        cases hy : es.mapM (readEntry c T) with
        | error e' =>
          have h' : (es.mapM (readEntry c T) >>= fun ys => pure (y :: ys)) = .error e := h
          rw [hy] at h'
          exact ih (by rw [hy]; exact congrArg _ (Except.error.inj h'))
        | ok ys =>
          have h' : (es.mapM (readEntry c T) >>= fun ys => pure (y :: ys)) = .error e := h
          rw [hy] at h'
          cases h'
  have ht : ∀ (es : List (Key × D)) {e}, readTemporal c T es = .error e → e = .validation := by
    intro es e h
    rw [readTemporal] at h
    cases hy : es.mapM (readEntry c T) with
    | error e' => rw [hy] at h; exact hm es (by rw [hy]; exact congrArg _ (Except.error.inj h))
    | ok ys => rw [hy] at h; cases h
  rw [readField] at h
  cases hd : asDict d with
  | none => rw [hd] at h; exact hs h
  | some es =>
    rw [hd] at h
    dsimp only at h
    rcases outcome c (es.map (·.1)) with ⟨-, e'⟩ | ⟨-, e'⟩ | ⟨-, e'⟩ | ⟨ho, -⟩
    · rw [e'] at h; exact ht es h
    · rw [e'] at h; exact ht es h
    · rw [e'] at h; exact hs h
    · exact absurd ho (hk es hd)

/-! ## Installations -/

theorem all_ok {α : Type} (f : α → Except RErr Unit) (l : List α) : checkAll f l = .ok () ↔ ∀ a ∈ l, f a = .ok () := by
  induction l with
  | nil => simp [checkAll]
  | cons a l ih =>
    rw [checkAll]
    simp only [List.mem_cons, forall_eq_or_imp, ← ih]
    rcases f a with e | u
    · exact ⟨(fun h => by cases h), (fun h => by cases h.1)⟩
    · exact ⟨fun h => ⟨rfl, h⟩, fun h => h.2⟩

theorem then_ok (a b : Except RErr Unit) : (a >>= fun _ => b) = .ok () ↔ a = .ok () ∧ b = .ok () := by
  rcases a with e | u
  · exact ⟨(fun h => by cases h), (fun h => by cases h.1)⟩
  · exact ⟨fun h => ⟨rfl, h⟩, fun h => h.2⟩

theorem name_ok (c : Reading) (name : List Char) : checkName c name = .ok () ↔ ∀ x ∈ name, Allowed c x := by
  have h : nameOk c name = true ↔ ∀ x ∈ name, Allowed c x := by
    rw [nameOk, List.all_eq_true]
    refine forall₂_congr fun x _ => ?_
    simp only [Allowed, Bool.or_eq_true, Bool.and_eq_true, decide_eq_true_eq, List.mem_cons, List.not_mem_nil, or_false]
    tauto
  rw [checkName, ← h]
  by_cases h' : nameOk c name = true
  · rw [if_pos h']; exact ⟨fun _ => h', fun _ => rfl⟩
  · rw [if_neg h']; exact ⟨(fun h => by cases h), fun h => absurd h h'⟩

theorem types_acc (l acc : List String) (h : acc.Nodup) :
    (l.foldl (fun acc t => if acc.contains t then acc else acc ++ [t]) acc).Nodup ∧
      ∀ t, t ∈ l.foldl (fun acc t => if acc.contains t then acc else acc ++ [t]) acc ↔ t ∈ acc ∨ t ∈ l := by
  induction l generalizing acc with
  | nil => exact ⟨h, by simp⟩
  | cons a l ih =>
    rw [List.foldl_cons]
    by_cases ha : acc.contains a = true
    · rw [if_pos ha]
      obtain ⟨h₁, h₂⟩ := ih acc h
      refine ⟨h₁, fun t => ?_⟩
      rw [h₂, List.mem_cons]
      have : a ∈ acc := by simpa using ha
      constructor
      · rintro (h | h)
        · exact Or.inl h
        · exact Or.inr (Or.inr h)
      · rintro (h | rfl | h)
        · exact Or.inl h
        · exact Or.inl this
        · exact Or.inr h
    · rw [if_neg ha]
      have hna : a ∉ acc := by simpa using ha
      obtain ⟨h₁, h₂⟩ := ih (acc ++ [a]) (by
        rw [List.nodup_append]
        exact ⟨h, by simp, fun x hx y hy e => hna (by
          rw [List.mem_singleton] at hy
          rw [← hy, ← e]; exact hx)⟩)
      refine ⟨h₁, fun t => ?_⟩
      rw [h₂, List.mem_append, List.mem_singleton, List.mem_cons, or_assoc]

theorem models_ok (m : Temporal String) : checkModels m = .ok () ↔ OneType m := by
  cases m with
  | single b =>
    simp only [checkModels, true_iff]
    rintro x y hx hy
    have hx : x = b := hx
    have hy : y = b := hy
    rw [hx, hy]
  | dates l =>
    have hT : ∀ t, t ∈ types (l.map (·.2)) ↔ Value (.dates l) t := by
      intro t
      rw [types, (types_acc _ [] List.nodup_nil).2 t]
      simp [Value]
    have hN : (types (l.map (·.2))).Nodup := (types_acc _ [] List.nodup_nil).1
    rw [checkModels]
    by_cases h : (types (l.map (·.2))).length > 1
    · rw [if_pos h]
      refine ⟨(fun h => by cases h), fun h' => ?_⟩
      rcases ht : types (l.map (·.2)) with _ | ⟨a, _ | ⟨b, r⟩⟩
      · rw [ht] at h; simp at h
      · rw [ht] at h; simp at h
      · rw [ht] at hN hT
        have := h' a b ((hT a).mp (by simp)) ((hT b).mp (by simp))
        rw [this] at hN
        simp at hN
    · rw [if_neg h]
      refine ⟨fun _ => ?_, fun _ => rfl⟩
      intro a b ha hb
      rw [← hT] at ha hb
      rcases ht : types (l.map (·.2)) with _ | ⟨x, _ | ⟨y, r⟩⟩
      · rw [ht] at ha; cases ha
      · rw [ht, List.mem_singleton] at ha hb
        rw [ha, hb]
      · rw [ht] at h; simp at h

theorem rate_ok {E : Type} (r : Rate E) : checkRate r = .ok () ↔ GoodRate r := by
  obtain ⟨a, b⟩ := r
  rcases a with _ | a <;> rcases b with _ | (_ | ⟨b, bs⟩) <;> simp [checkRate, GoodRate]

theorem shore_ok {E : Type} (a b : Option E) (g : Temporal Category) :
    checkShore a b g = .ok () ↔ (∀ e, a = some e → Value g .powerFromShore) ∧ ∀ e, b = some e → Value g .powerFromShore := by
  have hg : ∀ a b : Option E, (a.isSome || b.isSome) = true → (checkShore a b g = .ok () ↔ Value g .powerFromShore) := by
    intro a b hab
    unfold checkShore
    rw [if_pos hab]
    cases g with
    | single g =>
      by_cases h : g = .powerFromShore
      · simp [h, Value]
      · simp [h, Value, Ne.symm h]
    | dates l =>
      dsimp only
      by_cases h : (l.map (·.2)).contains Category.powerFromShore = true
      · rw [if_pos h]
        refine ⟨fun _ => ?_, fun _ => rfl⟩
        simpa [Value] using h
      · rw [if_neg h]
        refine ⟨(fun h => by cases h), fun h' => ?_⟩
        exact absurd (by simpa [Value] using h') h
  rcases a with _ | a <;> rcases b with _ | b
  · simp [checkShore]
  all_goals
    rw [hg _ _ rfl]
    simp

theorem set_ok {E : Type} (c : Reading) (g : GeneratorSet E) : checkGeneratorSet c g = .ok () ↔ GoodSet c g := by
  rw [checkGeneratorSet, then_ok, then_ok, name_ok, all_ok]
  by_cases h : g.consumers.isEmpty = true
  · rw [if_pos h]
    refine ⟨(fun h => by cases h.2.2), fun h' => ?_⟩
    exact absurd (List.isEmpty_iff.mp h) h'.supplied
  · rw [if_neg h, shore_ok]
    constructor
    · rintro ⟨h₁, h₂, h₃, h₄⟩
      exact ⟨h₁, fun e => h (by rw [e]; rfl), fun m hm => (models_ok m).mp (h₂ m hm), h₃, h₄⟩
    · intro h'
      exact ⟨h'.name, fun m hm => (models_ok m).mpr (h'.consumers m hm), h'.cable, h'.usage⟩

theorem filled_iff {α : Type} (o : Option (List α)) : filled o = true ↔ ∃ a l, o = some (a :: l) := by
  rcases o with _ | (_ | ⟨a, l⟩) <;> simp [filled]

theorem getD_iff {α : Type} (P : α → Prop) (o : Option (List α)) :
    (∀ a ∈ o.getD [], P a) ↔ ∀ l, o = some l → ∀ a ∈ l, P a := by
  rcases o with _ | l <;> simp

/-- An installation passes the schema exactly if it is within the rules. -/
theorem C114_installation {E : Type} (c : Reading) (i : Installation E) : checkInstallation c i = .ok () ↔ Good c i := by
  have hfilled : (if filled i.fuelConsumers || filled i.emitters || filled i.generatorSets then Except.ok ()
      else Except.error RErr.validation) = .ok () ↔ (∃ g l, i.generatorSets = some (g :: l)) ∨
      (∃ m l, i.fuelConsumers = some (m :: l)) ∨ ∃ e l, i.emitters = some (e :: l) := by
    rw [← filled_iff, ← filled_iff, ← filled_iff]
    cases filled i.fuelConsumers <;> cases filled i.emitters <;> cases filled i.generatorSets <;> simp
  have hem : ∀ e : Emitter E, checkEmitter c e = .ok () ↔ (∀ x ∈ e.name, Allowed c x) ∧ ∀ r ∈ e.rates, GoodRate r := by
    intro e
    rw [checkEmitter, then_ok, name_ok, all_ok]
    exact and_congr Iff.rfl (forall₂_congr fun r _ => rate_ok r)
  rw [checkInstallation, then_ok, then_ok, then_ok, then_ok, name_ok, all_ok, all_ok, all_ok, hfilled, getD_iff, getD_iff,
    getD_iff]
  constructor
  · rintro ⟨h₁, h₂, h₃, h₄, h₅⟩
    exact ⟨h₁, fun l hl g hg => (set_ok c g).mp (h₂ l hl g hg), fun l hl m hm => (models_ok m).mp (h₃ l hl m hm),
      fun l hl e he => (hem e).mp (h₄ l hl e he), h₅⟩
  · intro h
    exact ⟨h.name, fun l hl g hg => (set_ok c g).mpr (h.sets l hl g hg),
      fun l hl m hm => (models_ok m).mpr (h.fuel l hl m hm), fun l hl e he => (hem e).mpr (h.emitters l hl e he),
      h.something⟩

/-! ## Example -/

/-- A reading for the examples: one text is a date. -/
def reading : Reading :=
  ⟨fun s => s = "2020-01-01T00:00:00".toList, fun s => s = "2020-01-01 00:00:00".toList, fun _ => none, Char.isDigit⟩

/-- Documents for the examples: numbers, and dicts of numbers. -/
abbrev Doc := ℕ ⊕ List (Key × ℕ)

example : isTemporal reading [.day 18262, .text "2020-01-01T00:00:00".toList] = .ok true := by decide +kernel

example : isTemporal reading [.text "2020-01-01 00:00:00;2020-01-01 00:00:00".toList] = .ok true := by decide +kernel

example : isTemporal reading [.text "TYPE".toList, .day 18262] = .error .invalidDate := by decide +kernel

example : isTemporal reading [.text "TYPE".toList, .text "MODEL".toList] = .ok false := by decide +kernel

example : isTemporal reading [.day 18262, .other] = .error .attributeError := by decide +kernel

/-- The dicts among the documents. -/
def asDict : Doc → Option (List (Key × Doc))
  | .inl _ => none
  | .inr l => some (l.map fun e => (e.1, Sum.inl e.2))

/-- Small numbers are valid. -/
def small : Doc → Option ℕ
  | .inl n => if n < 10 then some n else none
  | .inr _ => none

example : readField reading asDict small (.inr [(.day 1, 3), (.day 0, 4)]) = .ok (.dates [(86400000000, 3), (0, 4)]) := by
  decide +kernel

example : readField reading asDict small (.inr [(.day 0, 3), (.day 1, 14)]) = .error .validation := by decide +kernel

example : readField reading asDict small (.inl 3) = .ok (.single 3) := by decide +kernel

example : checkInstallation (E := ℕ) reading ⟨"Ærfugl 1".toList,
    some [⟨"genset".toList, .dates [(0, .other 1), (5, .powerFromShore)], some 1, none, [.single "DIRECT"]⟩], none, none⟩ =
    .ok () := by decide +kernel

example : checkInstallation (E := ℕ) reading ⟨"A".toList,
    some [⟨"genset".toList, .dates [(0, .other 1), (5, .other 2)], some 1, none, [.single "DIRECT"]⟩], none, none⟩ =
    .error .validation := by decide +kernel

example : checkInstallation (E := ℕ) reading ⟨"A".toList, none, some [.dates [(0, "DIRECT"), (5, "TABULATED")]], none⟩ =
    .error .validation := by decide +kernel

example : checkInstallation (E := ℕ) reading ⟨"A".toList, none, none, some [⟨"vent".toList, [⟨some 1, some [2]⟩]⟩]⟩ =
    .error .validation := by decide +kernel

end Verif.C114
