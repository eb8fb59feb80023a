import Verif.Model.Dates
import Mathlib.Data.List.Forall2
import Mathlib.Tactic.Ring

/-!
# C87 Dates of a time series
-/

namespace Verif.C87
open Verif.Dates

/-! ## Specification -/

/-- The number written by digits. -/
def num (t : Text) : Nat := t.foldl (fun n c => 10 * n + (c.toNat - 48)) 0

/-- `n` digits. -/
def Digits (n : Nat) (t : Text) : Prop := t.length = n ∧ ∀ c ∈ t, c ∈ "0123456789".toList

/-- A month or day, with or without a leading zero. -/
def Short (lo hi : Nat) (t : Text) : Prop := (Digits 1 t ∨ Digits 2 t) ∧ lo ≤ num t ∧ num t ≤ hi

/-- The ways to write dates. -/
inductive Style
  | year
  | isoDate
  | isoTime
  | euDate
  | euTime
deriving DecidableEq

/-- The text says the moment, in a style. Dates have the year first or last and the day never in the middle. -/
def Written : Style → Text → Moment → Prop
  | .year, t, d => Digits 4 t ∧ d = ⟨num t, 1, 1, 0, 0, 0⟩
  | .isoDate, t, d => ∃ Y M D s, Digits 4 Y ∧ Short 1 12 M ∧ Short 1 31 D ∧ s ∈ ".-/".toList ∧
      t = Y ++ s :: (M ++ s :: D) ∧ d = ⟨num Y, num M, num D, 0, 0, 0⟩
  | .isoTime, t, d => ∃ Y M D h m s s₁ s₂ w, Digits 4 Y ∧ (Digits 2 M ∧ 1 ≤ num M ∧ num M ≤ 12) ∧
      (Digits 2 D ∧ 1 ≤ num D ∧ num D ≤ 31) ∧ (Digits 2 h ∧ num h ≤ 23) ∧ (Digits 2 m ∧ num m ≤ 59) ∧
      (Digits 2 s ∧ num s ≤ 59) ∧ s₁ ∈ ".-/".toList ∧ s₂ ∈ ".-/".toList ∧ w ∈ " T".toList ∧
      t = Y ++ s₁ :: (M ++ s₂ :: (D ++ w :: (h ++ ':' :: (m ++ ':' :: s)))) ∧
      d = ⟨num Y, num M, num D, num h, num m, num s⟩
  | .euDate, t, d => ∃ Y M D s, Digits 4 Y ∧ Short 1 12 M ∧ Short 1 31 D ∧ s ∈ ".-/".toList ∧
      t = D ++ s :: (M ++ s :: Y) ∧ d = ⟨num Y, num M, num D, 0, 0, 0⟩
  | .euTime, t, d => ∃ Y M D s h m w, Digits 4 Y ∧ Short 1 12 M ∧ Short 1 31 D ∧ s ∈ ".-/".toList ∧
      Digits 2 h ∧ Digits 2 m ∧ w ∈ " T".toList ∧
      ((t = D ++ s :: (M ++ s :: (Y ++ w :: (h ++ ':' :: m))) ∧ d = ⟨num Y, num M, num D, num h, num m, 0⟩) ∨
       ∃ s', Digits 2 s' ∧ t = D ++ s :: (M ++ s :: (Y ++ w :: (h ++ ':' :: (m ++ ':' :: s')))) ∧
        d = ⟨num Y, num M, num D, num h, num m, num s'⟩)

/-- A text with at most a date and a time to the second, and no odd white space. -/
def Plain (t : Text) : Prop := t.length ≤ 19 ∧ ∀ c ∈ t, c ∈ ['\t', '\n', '\r', '\x0b', '\x0c'] → False

/-- What is expected of pandas: it reads dates and times with dashes as they are written, if they exist. -/
structure Promise (reader : Fmt → Text → Option Moment) (valid : Moment → Bool) : Prop where
  year : ∀ Y, Digits 4 Y → reader .year Y = if valid ⟨num Y, 1, 1, 0, 0, 0⟩ then some ⟨num Y, 1, 1, 0, 0, 0⟩ else none
  isoDate : ∀ Y M D, Digits 4 Y → Short 1 12 M → Short 1 31 D → reader .iso (Y ++ '-' :: (M ++ '-' :: D)) =
    if valid ⟨num Y, num M, num D, 0, 0, 0⟩ then some ⟨num Y, num M, num D, 0, 0, 0⟩ else none
  isoTime : ∀ Y M D w h m s, Digits 4 Y → Digits 2 M → Digits 2 D → w ∈ " T".toList → Digits 2 h → Digits 2 m → Digits 2 s →
    reader .iso (Y ++ '-' :: (M ++ '-' :: (D ++ w :: (h ++ ':' :: (m ++ ':' :: s))))) =
    if valid ⟨num Y, num M, num D, num h, num m, num s⟩ then some ⟨num Y, num M, num D, num h, num m, num s⟩ else none
  euDate : ∀ Y M D, Digits 4 Y → Short 1 12 M → Short 1 31 D → reader .dayFirst (D ++ '-' :: (M ++ '-' :: Y)) =
    if valid ⟨num Y, num M, num D, 0, 0, 0⟩ then some ⟨num Y, num M, num D, 0, 0, 0⟩ else none
  euMinute : ∀ Y M D w h m, Digits 4 Y → Short 1 12 M → Short 1 31 D → w ∈ " T".toList → Digits 2 h → Digits 2 m →
    reader .dayFirst (D ++ '-' :: (M ++ '-' :: (Y ++ w :: (h ++ ':' :: m)))) =
    if valid ⟨num Y, num M, num D, num h, num m, 0⟩ then some ⟨num Y, num M, num D, num h, num m, 0⟩ else none
  euSecond : ∀ Y M D w h m s, Digits 4 Y → Short 1 12 M → Short 1 31 D → w ∈ " T".toList → Digits 2 h → Digits 2 m →
    Digits 2 s → reader .dayFirst (D ++ '-' :: (M ++ '-' :: (Y ++ w :: (h ++ ':' :: (m ++ ':' :: s))))) =
    if valid ⟨num Y, num M, num D, num h, num m, num s⟩ then some ⟨num Y, num M, num D, num h, num m, num s⟩ else none

/-! ## Regular expressions -/

/-- The language of a regular expression. -/
def Lang : Re → Text → Prop
  | .set cs, s => ∃ c ∈ cs, s = [c]
  | .eps, s => s = []
  | .seq a b, s => ∃ x y, s = x ++ y ∧ Lang a x ∧ Lang b y
  | .alt a b, s => Lang a s ∨ Lang b s
  | .many cs, s => ∀ c ∈ s, c ∈ cs

theorem many_iff (cs : List Char) : ∀ s r : Text, r ∈ manyRests cs s ↔ ∃ p, s = p ++ r ∧ ∀ c ∈ p, c ∈ cs := by
  intro s
  induction s with
  | nil =>
    intro r
    simp only [manyRests, List.mem_singleton]
    constructor
    · rintro rfl; exact ⟨[], rfl, by simp⟩
    · rintro ⟨p, h, -⟩
      have := List.append_eq_nil_iff.mp h.symm
      exact this.2
  | cons c s ih =>
    intro r
    simp only [manyRests, List.mem_cons]
    constructor
    · rintro (rfl | h)
      · exact ⟨[], rfl, by simp⟩
      · split_ifs at h with hc
        · obtain ⟨p, rfl, hp⟩ := (ih r).mp h
          exact ⟨c :: p, rfl, by simpa using ⟨hc, hp⟩⟩
        · cases h
    · rintro ⟨p, h, hp⟩
      cases p with
      | nil => left; simpa using h.symm
      | cons d p =>
        right
        simp only [List.cons_append, List.cons.injEq] at h
        obtain ⟨rfl, rfl⟩ := h
        rw [if_pos (hp c (by simp))]
        exact (ih r).mpr ⟨p, rfl, fun e he => hp e (by simp [he])⟩

theorem rests_iff : ∀ (r : Re) (s t : Text), t ∈ r.rests s ↔ ∃ p, s = p ++ t ∧ Lang r p := by
  intro r
  induction r with
  | set cs =>
    intro s t
    cases s with
    | nil => simp [Re.rests, Lang]
    | cons c s =>
      simp only [Re.rests, Lang]
      constructor
      · intro h
        split_ifs at h with hc
        · simp only [List.mem_singleton] at h
          subst h
          exact ⟨[c], rfl, c, hc, rfl⟩
        · cases h
      · rintro ⟨p, h, d, hd, rfl⟩
        simp only [List.cons_append, List.nil_append, List.cons.injEq] at h
        obtain ⟨rfl, rfl⟩ := h
        rw [if_pos hd]; simp
  | eps =>
    intro s t
    simp only [Re.rests, Lang, List.mem_singleton]
    constructor
    · rintro rfl; exact ⟨[], rfl, rfl⟩
    · rintro ⟨p, h, rfl⟩; exact h.symm
  | seq a b iha ihb =>
    intro s t
    simp only [Re.rests, List.mem_flatMap, Lang]
    constructor
    · rintro ⟨u, h1, h2⟩
      obtain ⟨p, rfl, hp⟩ := (iha s u).mp h1
      obtain ⟨q, rfl, hq⟩ := (ihb u t).mp h2
      exact ⟨p ++ q, by simp, p, q, rfl, hp, hq⟩
    · rintro ⟨_, h, x, y, rfl, hx, hy⟩
      exact ⟨y ++ t, (iha s _).mpr ⟨x, by rw [h]; simp, hx⟩, (ihb _ t).mpr ⟨y, rfl, hy⟩⟩
  | alt a b iha ihb =>
    intro s t
    simp only [Re.rests, List.mem_append, Lang, iha, ihb]
    constructor
    · rintro (⟨p, h, hp⟩ | ⟨p, h, hp⟩)
      · exact ⟨p, h, .inl hp⟩
      · exact ⟨p, h, .inr hp⟩
    · rintro ⟨p, h, hp | hp⟩
      · exact .inl ⟨p, h, hp⟩
      · exact .inr ⟨p, h, hp⟩
  | many cs => intro s t; exact many_iff cs s t

theorem full_iff (r : Re) (s : Text) : r.full s = true ↔ Lang r s := by
  unfold Re.full
  rw [List.contains_iff_mem, rests_iff]
  simp

/-! ## Fields -/

theorem lang_opt (r : Re) (s : Text) : Lang (opt r) s ↔ Lang r s ∨ s = [] := Iff.rfl

theorem digits_eq : "0123456789".toList = digits := rfl

theorem lang_digits2 (t : Text) : Lang (digit ⬝ digit) t ↔ Digits 2 t := by
  unfold Digits
  rw [digits_eq]
  constructor
  · rintro ⟨_, _, rfl, ⟨a, ha, rfl⟩, ⟨b, hb, rfl⟩⟩
    exact ⟨rfl, by simpa using ⟨ha, hb⟩⟩
  · rintro ⟨hl, hd⟩
    match t, hl with
    | [a, b], _ => exact ⟨[a], [b], rfl, ⟨a, hd a (by simp), rfl⟩, ⟨b, hd b (by simp), rfl⟩⟩

theorem lang_year (t : Text) : Lang year t ↔ Digits 4 t := by
  unfold Digits
  rw [digits_eq]
  constructor
  · rintro ⟨_, _, rfl, ⟨a, ha, rfl⟩, _, _, rfl, ⟨b, hb, rfl⟩, _, _, rfl, ⟨c, hc, rfl⟩, ⟨d, hd, rfl⟩⟩
    exact ⟨rfl, by simpa using ⟨ha, hb, hc, hd⟩⟩
  · rintro ⟨hl, hd⟩
    match t, hl with
    | [a, b, c, d], _ =>
      exact ⟨[a], [b, c, d], rfl, ⟨a, hd a (by simp), rfl⟩, [b], [c, d], rfl, ⟨b, hd b (by simp), rfl⟩, [c], [d], rfl,
        ⟨c, hd c (by simp), rfl⟩, ⟨d, hd d (by simp), rfl⟩⟩

/-- Characters and lengths of a field. -/
def Small (lo : Nat) (r : Re) : Prop := ∀ t, Lang r t → (lo ≤ t.length ∧ t.length ≤ 2) ∧ ∀ c ∈ t, c ∈ digits

theorem small_pair {as bs : List Char} (ha : ∀ a ∈ as, a ∈ digits) (hb : ∀ b ∈ bs, b ∈ digits) : Small 2 (.set as ⬝ .set bs) := by
  rintro t ⟨_, _, rfl, ⟨a, h1, rfl⟩, ⟨b, h2, rfl⟩⟩
  exact ⟨by simp, by simpa using ⟨ha a h1, hb b h2⟩⟩

theorem small_zero {bs : List Char} (hb : ∀ b ∈ bs, b ∈ digits) : Small 1 (opt (.set ['0']) ⬝ .set bs) := by
  rintro t ⟨_, _, rfl, (⟨a, h1, rfl⟩ | rfl), ⟨b, h2, rfl⟩⟩
  · simp only [List.mem_singleton] at h1
    subst h1
    exact ⟨by simp, by simpa using ⟨by decide, hb b h2⟩⟩
  · exact ⟨by simp, by simpa using hb b h2⟩

theorem small_alt {lo lo' lo'' : Nat} {a b : Re} (h : lo ≤ lo') (h' : lo ≤ lo'') (ha : Small lo' a) (hb : Small lo'' b) :
    Small lo (a ∣∣ b) := by
  rintro t (ht | ht)
  · obtain ⟨⟨x, y⟩, z⟩ := ha t ht; exact ⟨⟨by omega, y⟩, z⟩
  · obtain ⟨⟨x, y⟩, z⟩ := hb t ht; exact ⟨⟨by omega, y⟩, z⟩

theorem small_month : Small 1 month :=
  small_alt (by decide) (le_refl _) (small_pair (by decide) (by decide)) (small_zero (by decide))
theorem small_day : Small 1 day :=
  small_alt (by decide) (le_refl _) (small_pair (by decide) (by decide))
    (small_alt (by decide) (le_refl _) (small_pair (by decide) (by decide)) (small_zero (by decide)))
theorem small_month2 : Small 2 month2 :=
  small_alt (le_refl _) (le_refl _) (small_pair (by decide) (by decide)) (small_pair (by decide) (by decide))
theorem small_day2 : Small 2 day2 :=
  small_alt (le_refl _) (le_refl _) (small_pair (by decide) (by decide))
    (small_alt (le_refl _) (le_refl _) (small_pair (by decide) (by decide)) (small_pair (by decide) (by decide)))
theorem small_hour : Small 2 hour :=
  small_alt (le_refl _) (le_refl _) (small_pair (by decide) (by decide)) (small_pair (by decide) (by decide))
theorem small_sixty : Small 2 sixty := small_pair (by decide) (by decide)

theorem field_short {r : Re} {lo hi : Nat} (hs : Small 1 r)
    (h1 : ∀ a ∈ digits, (r.full [a] = true ↔ lo ≤ num [a] ∧ num [a] ≤ hi))
    (h2 : ∀ a ∈ digits, ∀ b ∈ digits, (r.full [a, b] = true ↔ lo ≤ num [a, b] ∧ num [a, b] ≤ hi)) (t : Text) :
    Lang r t ↔ Short lo hi t := by
  unfold Short Digits
  rw [digits_eq]
  constructor
  · intro h
    obtain ⟨⟨l1, l2⟩, hd⟩ := hs t h
    rw [← full_iff] at h
    match t, l1, l2 with
    | [a], _, _ => exact ⟨.inl ⟨rfl, hd⟩, (h1 a (hd a (by simp))).mp h⟩
    | [a, b], _, _ => exact ⟨.inr ⟨rfl, hd⟩, (h2 a (hd a (by simp)) b (hd b (by simp))).mp h⟩
  · rintro ⟨hl, hn⟩
    rw [← full_iff]
    rcases hl with ⟨hl, hd⟩ | ⟨hl, hd⟩
    · match t, hl with
      | [a], _ => exact (h1 a (hd a (by simp))).mpr hn
    · match t, hl with
      | [a, b], _ => exact (h2 a (hd a (by simp)) b (hd b (by simp))).mpr hn

theorem field_two {r : Re} {lo hi : Nat} (hs : Small 2 r)
    (h2 : ∀ a ∈ digits, ∀ b ∈ digits, (r.full [a, b] = true ↔ lo ≤ num [a, b] ∧ num [a, b] ≤ hi)) (t : Text) :
    Lang r t ↔ Digits 2 t ∧ lo ≤ num t ∧ num t ≤ hi := by
  unfold Digits
  rw [digits_eq]
  constructor
  · intro h
    obtain ⟨⟨l1, l2⟩, hd⟩ := hs t h
    rw [← full_iff] at h
    match t, l1, l2 with
    | [a, b], _, _ => exact ⟨⟨rfl, hd⟩, (h2 a (hd a (by simp)) b (hd b (by simp))).mp h⟩
  · rintro ⟨⟨hl, hd⟩, hn⟩
    rw [← full_iff]
    match t, hl with
    | [a, b], _ => exact (h2 a (hd a (by simp)) b (hd b (by simp))).mpr hn

theorem lang_month (t : Text) : Lang month t ↔ Short 1 12 t :=
  field_short small_month (by decide +kernel) (by decide +kernel) t
theorem lang_day (t : Text) : Lang day t ↔ Short 1 31 t :=
  field_short small_day (by decide +kernel) (by decide +kernel) t
theorem lang_month2 (t : Text) : Lang month2 t ↔ Digits 2 t ∧ 1 ≤ num t ∧ num t ≤ 12 :=
  field_two small_month2 (by decide +kernel) t
theorem lang_day2 (t : Text) : Lang day2 t ↔ Digits 2 t ∧ 1 ≤ num t ∧ num t ≤ 31 :=
  field_two small_day2 (by decide +kernel) t
theorem lang_hour (t : Text) : Lang hour t ↔ Digits 2 t ∧ 0 ≤ num t ∧ num t ≤ 23 :=
  field_two small_hour (by decide +kernel) t
theorem lang_sixty (t : Text) : Lang sixty t ↔ Digits 2 t ∧ 0 ≤ num t ∧ num t ≤ 59 :=
  field_two small_sixty (by decide +kernel) t

theorem lang_same (f : Re → Re) (t : Text) : Lang (same f) t ↔ ∃ s ∈ ".-/".toList, Lang (f (.set [s])) t := by
  have e : ".-/".toList = ['.', '-', '/'] := rfl
  rw [e]
  unfold same
  simp only [Lang, List.mem_cons, List.not_mem_nil, or_false, exists_eq_or_imp, exists_eq_left]
  tauto

theorem lang_char (c : Char) (t : Text) : Lang (.set [c]) t ↔ t = [c] := by simp [Lang]

/-! ## Patterns and styles -/

theorem year_written (t : Text) : Lang yearOnly t ↔ ∃ d, Written .year t d := by
  unfold yearOnly
  rw [lang_year]
  exact ⟨fun h => ⟨_, h, rfl⟩, fun ⟨_, h, _⟩ => h⟩

theorem isoDate_written (t : Text) : Lang isoDate t ↔ ∃ d, Written .isoDate t d := by
  unfold isoDate
  rw [lang_same]
  constructor
  · rintro ⟨s, hs, Y, _, rfl, hY, _, _, rfl, h1, M, _, rfl, hM, _, D, rfl, h2, hD⟩
    rw [lang_char] at h1 h2
    subst h1 h2
    exact ⟨_, Y, M, D, s, (lang_year Y).mp hY, (lang_month M).mp hM, (lang_day D).mp hD, hs, by simp, rfl⟩
  · rintro ⟨_, Y, M, D, s, hY, hM, hD, hs, rfl, -⟩
    exact ⟨s, hs, Y, _, rfl, (lang_year Y).mpr hY, [s], _, rfl, (lang_char s _).mpr rfl, M, _, rfl, (lang_month M).mpr hM,
      [s], D, rfl, (lang_char s _).mpr rfl, (lang_day D).mpr hD⟩

theorem euDate_written (t : Text) : Lang euDate t ↔ ∃ d, Written .euDate t d := by
  unfold euDate
  rw [lang_same]
  constructor
  · rintro ⟨s, hs, D, _, rfl, hD, _, _, rfl, h1, M, _, rfl, hM, _, Y, rfl, h2, hY⟩
    rw [lang_char] at h1 h2
    subst h1 h2
    exact ⟨_, Y, M, D, s, (lang_year Y).mp hY, (lang_month M).mp hM, (lang_day D).mp hD, hs, by simp, rfl⟩
  · rintro ⟨_, Y, M, D, s, hY, hM, hD, hs, rfl, -⟩
    exact ⟨s, hs, D, _, rfl, (lang_day D).mpr hD, [s], _, rfl, (lang_char s _).mpr rfl, M, _, rfl, (lang_month M).mpr hM,
      [s], Y, rfl, (lang_char s _).mpr rfl, (lang_year Y).mpr hY⟩

theorem gap_space {w : Char} {t : Text} (hw : w ∈ 'T' :: white) (hp : Plain t) (hm : w ∈ t) : w ∈ " T".toList := by
  have e : " T".toList = [' ', 'T'] := rfl
  rw [e]
  have := hp.2 w hm
  unfold white at hw
  simp only [List.mem_cons, List.not_mem_nil, or_false] at hw this ⊢
  tauto

theorem gap_white {w : Char} (hw : w ∈ " T".toList) : w ∈ 'T' :: white := by
  have e : " T".toList = [' ', 'T'] := rfl
  rw [e] at hw
  unfold white
  simp only [List.mem_cons, List.not_mem_nil, or_false] at hw ⊢
  tauto

theorem euTime_written (t : Text) (hp : Plain t) : Lang euDatetime t ↔ ∃ d, Written .euTime t d := by
  unfold euDatetime
  rw [lang_same]
  constructor
  · rintro ⟨s, hs, D, _, rfl, hD, _, _, rfl, h1, M, _, rfl, hM, _, _, rfl, h2, Y, _, rfl, hY, _, _, rfl, ⟨w, hw, rfl⟩,
      h, _, rfl, hh, _, _, rfl, h3, m, o, rfl, hm, ho⟩
    rw [lang_char] at h1 h2 h3
    subst h1 h2 h3
    have hw' := gap_space hw hp (by simp)
    rcases ho with ⟨_, s', rfl, h4, hs'⟩ | rfl
    · rw [lang_char] at h4
      subst h4
      exact ⟨_, Y, M, D, s, h, m, w, (lang_year Y).mp hY, (lang_month M).mp hM, (lang_day D).mp hD, hs,
        (lang_digits2 h).mp hh, (lang_digits2 m).mp hm, hw', .inr ⟨s', (lang_digits2 s').mp hs', by simp, rfl⟩⟩
    · exact ⟨_, Y, M, D, s, h, m, w, (lang_year Y).mp hY, (lang_month M).mp hM, (lang_day D).mp hD, hs,
        (lang_digits2 h).mp hh, (lang_digits2 m).mp hm, hw', .inl ⟨by simp, rfl⟩⟩
  · rintro ⟨_, Y, M, D, s, h, m, w, hY, hM, hD, hs, hh, hm, hw, ⟨rfl, -⟩ | ⟨s', hs', rfl, -⟩⟩
    · refine ⟨s, hs, D, _, rfl, (lang_day D).mpr hD, [s], _, rfl, (lang_char s _).mpr rfl, M, _, rfl, (lang_month M).mpr hM,
        [s], _, rfl, (lang_char s _).mpr rfl, Y, _, rfl, (lang_year Y).mpr hY, [w], _, rfl, ⟨w, gap_white hw, rfl⟩, h, _, rfl,
        (lang_digits2 h).mpr hh, [':'], _, rfl, (lang_char _ _).mpr rfl, m, [], by simp, (lang_digits2 m).mpr hm, .inr rfl⟩
    · refine ⟨s, hs, D, _, rfl, (lang_day D).mpr hD, [s], _, rfl, (lang_char s _).mpr rfl, M, _, rfl, (lang_month M).mpr hM,
        [s], _, rfl, (lang_char s _).mpr rfl, Y, _, rfl, (lang_year Y).mpr hY, [w], _, rfl, ⟨w, gap_white hw, rfl⟩, h, _, rfl,
        (lang_digits2 h).mpr hh, [':'], _, rfl, (lang_char _ _).mpr rfl, m, _, rfl, (lang_digits2 m).mpr hm, .inl ?_⟩
      exact ⟨[':'], s', rfl, (lang_char _ _).mpr rfl, (lang_digits2 s').mpr hs'⟩

theorem seps_iff (c : Char) : c ∈ seps ↔ c ∈ ".-/".toList := by
  have e : ".-/".toList = ['.', '-', '/'] := rfl
  rw [e]; unfold seps; simp only [List.mem_cons, List.not_mem_nil, or_false]; tauto

theorem isoTime_written (t : Text) (hp : Plain t) : Lang isoDatetime t ↔ ∃ d, Written .isoTime t d := by
  unfold isoDatetime
  constructor
  · rintro ⟨x1, _, rfl, hx1, x2, _, rfl, hx2, Y, _, rfl, hY, _, _, rfl, ⟨s₁, hs1, rfl⟩, M, _, rfl, hM, _, _, rfl,
      ⟨s₂, hs2, rfl⟩, D, _, rfl, hD, _, _, rfl, ⟨w, hw, rfl⟩, h, _, rfl, hh, _, _, rfl, h3, m, _, rfl, hm, _, _, rfl, h4,
      s, _, rfl, hs, x3, x4, rfl, hx3, hx4⟩
    rw [lang_char] at h3 h4
    subst h3 h4
    have hw' := gap_space hw hp (by simp)
    rw [lang_year] at hY
    rw [lang_month2] at hM
    rw [lang_day2] at hD
    rw [lang_hour] at hh
    rw [lang_sixty] at hm hs
    have hlen := hp.1
    simp only [List.length_append, hY.1, hM.1.1, hD.1.1, hh.1.1, hm.1.1, hs.1.1, List.length_cons, List.length_nil] at hlen
    have e1 : x1 = [] := List.length_eq_zero_iff.mp (by omega)
    have e2 : x2 = [] := List.length_eq_zero_iff.mp (by omega)
    have e3 : x3 = [] := List.length_eq_zero_iff.mp (by omega)
    have e4 : x4 = [] := List.length_eq_zero_iff.mp (by omega)
    subst e1 e2 e3 e4
    exact ⟨_, Y, M, D, h, m, s, s₁, s₂, w, hY, hM, hD, ⟨hh.1, hh.2.2⟩, ⟨hm.1, hm.2.2⟩, ⟨hs.1, hs.2.2⟩, (seps_iff _).mp hs1,
      (seps_iff _).mp hs2, hw', by simp, rfl⟩
  · rintro ⟨_, Y, M, D, h, m, s, s₁, s₂, w, hY, hM, hD, hh, hm, hs, hs1, hs2, hw, rfl, -⟩
    refine ⟨[], _, rfl, .inr rfl, [], _, rfl, .inr rfl, Y, _, rfl, (lang_year Y).mpr hY, [s₁], _, rfl,
      ⟨s₁, (seps_iff _).mpr hs1, rfl⟩, M, _, rfl, (lang_month2 M).mpr hM, [s₂], _, rfl, ⟨s₂, (seps_iff _).mpr hs2, rfl⟩,
      D, _, rfl, (lang_day2 D).mpr hD, [w], _, rfl, ⟨w, gap_white hw, rfl⟩, h, _, rfl,
      (lang_hour h).mpr ⟨hh.1, Nat.zero_le _, hh.2⟩, [':'], _, rfl, (lang_char _ _).mpr rfl, m, _, rfl,
      (lang_sixty m).mpr ⟨hm.1, Nat.zero_le _, hm.2⟩, [':'], _, rfl, (lang_char _ _).mpr rfl, s, [], by simp,
      (lang_sixty s).mpr ⟨hs.1, Nat.zero_le _, hs.2⟩, [], [], rfl, .inr rfl, .inr rfl⟩

/-! ## Reading -/

theorem normalise_append (a b : Text) : normalise (a ++ b) = normalise a ++ normalise b := by simp [normalise]

theorem normalise_digits {n : Nat} {t : Text} (h : Digits n t) : normalise t = t := by
  unfold normalise
  conv_rhs => rw [← List.map_id t]
  apply List.map_congr_left
  intro c hc
  have := h.2 c hc
  have key : ∀ c ∈ "0123456789".toList, ¬ (c = '/' ∨ c = '.' ∨ c = '\\') := by decide
  rw [if_neg (key c this)]; rfl

theorem normalise_short {lo hi : Nat} {t : Text} (h : Short lo hi t) : normalise t = t := by
  rcases h.1 with h | h <;> exact normalise_digits h

theorem normalise_sep {s : Char} (hs : s ∈ ".-/".toList) (t : Text) : normalise (s :: t) = '-' :: normalise t := by
  have key : ∀ s ∈ ".-/".toList, (if s = '/' ∨ s = '.' ∨ s = '\\' then '-' else s) = '-' := by decide
  simp only [normalise, List.map_cons, key s hs]

theorem normalise_keep {s : Char} (hs : s ∈ " T:".toList) (t : Text) : normalise (s :: t) = s :: normalise t := by
  have key : ∀ s ∈ " T:".toList, (if s = '/' ∨ s = '.' ∨ s = '\\' then '-' else s) = s := by decide
  simp only [normalise, List.map_cons, key s hs]

theorem gap_keep {w : Char} (hw : w ∈ " T".toList) : w ∈ " T:".toList := by
  have e : " T".toList = [' ', 'T'] := rfl
  have e' : " T:".toList = [' ', 'T', ':'] := rfl
  rw [e] at hw; rw [e']
  simp only [List.mem_cons, List.not_mem_nil, or_false] at hw ⊢; tauto

/-- Which call of pandas is used for a style. -/
def call : Style → Fmt
  | .year => .year
  | .isoDate => .iso
  | .isoTime => .iso
  | .euDate => .dayFirst
  | .euTime => .dayFirst

theorem reads {reader : Fmt → Text → Option Moment} {valid : Moment → Bool} (hr : Promise reader valid) {st : Style}
    {t : Text} {d : Moment} (h : Written st t d) : reader (call st) (normalise t) = if valid d then some d else none := by
  have hc : ':' ∈ " T:".toList := by decide
  cases st with
  | year =>
    obtain ⟨h, rfl⟩ := h
    rw [normalise_digits h]; exact hr.year t h
  | isoDate =>
    obtain ⟨Y, M, D, s, hY, hM, hD, hs, rfl, rfl⟩ := h
    rw [normalise_append, normalise_sep hs, normalise_append, normalise_sep hs, normalise_digits hY, normalise_short hM,
      normalise_short hD]
    exact hr.isoDate Y M D hY hM hD
  | isoTime =>
    obtain ⟨Y, M, D, h, m, s, s₁, s₂, w, hY, hM, hD, hh, hm, hs, hs1, hs2, hw, rfl, rfl⟩ := h
    rw [normalise_append, normalise_sep hs1, normalise_append, normalise_sep hs2, normalise_append,
      normalise_keep (gap_keep hw), normalise_append, normalise_keep hc, normalise_append, normalise_keep hc,
      normalise_digits hY, normalise_digits hM.1, normalise_digits hD.1, normalise_digits hh.1, normalise_digits hm.1,
      normalise_digits hs.1]
    exact hr.isoTime Y M D w h m s hY hM.1 hD.1 hw hh.1 hm.1 hs.1
  | euDate =>
    obtain ⟨Y, M, D, s, hY, hM, hD, hs, rfl, rfl⟩ := h
    rw [normalise_append, normalise_sep hs, normalise_append, normalise_sep hs, normalise_digits hY, normalise_short hM,
      normalise_short hD]
    exact hr.euDate Y M D hY hM hD
  | euTime =>
    obtain ⟨Y, M, D, s, h, m, w, hY, hM, hD, hs, hh, hm, hw, ⟨rfl, rfl⟩ | ⟨s', hs', rfl, rfl⟩⟩ := h
    · rw [normalise_append, normalise_sep hs, normalise_append, normalise_sep hs, normalise_append,
        normalise_keep (gap_keep hw), normalise_append, normalise_keep hc, normalise_digits hY, normalise_short hM,
        normalise_short hD, normalise_digits hh, normalise_digits hm]
      exact hr.euMinute Y M D w h m hY hM hD hw hh hm
    · rw [normalise_append, normalise_sep hs, normalise_append, normalise_sep hs, normalise_append,
        normalise_keep (gap_keep hw), normalise_append, normalise_keep hc, normalise_append, normalise_keep hc,
        normalise_digits hY, normalise_short hM, normalise_short hD, normalise_digits hh, normalise_digits hm,
        normalise_digits hs']
      exact hr.euSecond Y M D w h m s' hY hM hD hw hh hm hs'

/-! ## One reading -/

def Num (t : Text) : Prop := ∀ c ∈ t, c ∈ "0123456789".toList

theorem sep_not {s : Char} (hs : s ∈ ".-/".toList) : s ∉ "0123456789".toList := by
  have key : ∀ s ∈ ".-/".toList, s ∉ "0123456789".toList := by decide
  exact key s hs

theorem gap_not {s : Char} (hs : s ∈ " T".toList) : s ∉ "0123456789".toList := by
  have key : ∀ s ∈ " T".toList, s ∉ "0123456789".toList := by decide
  exact key s hs

theorem colon_not : ':' ∉ "0123456789".toList := by decide

/-- The first run of digits of a text is determined. -/
theorem run_unique : ∀ {A B X Y : Text} {c e : Char}, Num A → Num B → c ∉ "0123456789".toList → e ∉ "0123456789".toList →
    A ++ c :: X = B ++ e :: Y → A = B ∧ c = e ∧ X = Y := by
  intro A
  induction A with
  | nil =>
    intro B X Y c e _ hB hc _ h
    cases B with
    | nil => simpa using h
    | cons b B =>
      simp only [List.nil_append, List.cons_append, List.cons.injEq] at h
      exact absurd (h.1 ▸ hB b (by simp)) hc
  | cons a A ih =>
    intro B X Y c e hA hB hc he h
    cases B with
    | nil =>
      simp only [List.nil_append, List.cons_append, List.cons.injEq] at h
      exact absurd (h.1 ▸ hA a (by simp)) he
    | cons b B =>
      simp only [List.cons_append, List.cons.injEq] at h
      obtain ⟨rfl, h⟩ := h
      obtain ⟨h1, h2, h3⟩ := ih (fun x hx => hA x (by simp [hx])) (fun x hx => hB x (by simp [hx])) hc he h
      exact ⟨by rw [h1], h2, h3⟩

theorem no_break {A B X : Text} {c : Char} (hA : Num A) (hc : c ∉ "0123456789".toList) (h : A = B ++ c :: X) : False := by
  apply hc; apply hA; rw [h]; simp

theorem Digits.is {n : Nat} {t : Text} (h : Digits n t) : Num t := h.2
theorem Short.is {lo hi : Nat} {t : Text} (h : Short lo hi t) : Num t := by rcases h.1 with h | h <;> exact h.2
theorem Short.len {lo hi : Nat} {t : Text} (h : Short lo hi t) : t.length ≤ 2 := by
  rcases h.1 with h | h <;> have := h.1 <;> omega

/-- The first run of digits, and whether there is more. -/
theorem head_shape {st : Style} {t : Text} {d : Moment} (h : Written st t d) :
    (st = .year ∧ Num t) ∨
    ((st = .isoDate ∨ st = .isoTime) ∧ ∃ A c X, Num A ∧ c ∉ "0123456789".toList ∧ t = A ++ c :: X ∧ A.length = 4) ∨
    ((st = .euDate ∨ st = .euTime) ∧ ∃ A c X, Num A ∧ c ∉ "0123456789".toList ∧ t = A ++ c :: X ∧ A.length ≤ 2) := by
  cases st with
  | year => exact .inl ⟨rfl, h.1.is⟩
  | isoDate =>
    obtain ⟨Y, M, D, s, hY, hM, hD, hs, rfl, rfl⟩ := h
    exact .inr (.inl ⟨.inl rfl, Y, s, _, hY.is, sep_not hs, rfl, hY.1⟩)
  | isoTime =>
    obtain ⟨Y, M, D, h, m, s, s₁, s₂, w, hY, hM, hD, hh, hm, hs, hs1, hs2, hw, rfl, rfl⟩ := h
    exact .inr (.inl ⟨.inr rfl, Y, s₁, _, hY.is, sep_not hs1, rfl, hY.1⟩)
  | euDate =>
    obtain ⟨Y, M, D, s, hY, hM, hD, hs, rfl, rfl⟩ := h
    exact .inr (.inr ⟨.inl rfl, D, s, _, hD.is, sep_not hs, rfl, hD.len⟩)
  | euTime =>
    obtain ⟨Y, M, D, s, h, m, w, hY, hM, hD, hs, hh, hm, hw, ⟨rfl, rfl⟩ | ⟨s', hs', rfl, rfl⟩⟩ := h
    · exact .inr (.inr ⟨.inr rfl, D, s, _, hD.is, sep_not hs, rfl, hD.len⟩)
    · exact .inr (.inr ⟨.inr rfl, D, s, _, hD.is, sep_not hs, rfl, hD.len⟩)

theorem iso_iso {t : Text} {d d' : Moment} (h : Written .isoDate t d) (h' : Written .isoTime t d') : False := by
  obtain ⟨Y, M, D, s, hY, hM, hD, hs, rfl, rfl⟩ := h
  obtain ⟨Y', M', D', h, m, s', s₁, s₂, w, hY', hM', hD', hh, hm, hs', hs1, hs2, hw, e, -⟩ := h'
  obtain ⟨-, -, e⟩ := run_unique hY.is hY'.is (sep_not hs) (sep_not hs1) e
  obtain ⟨-, -, e⟩ := run_unique hM.is hM'.1.is (sep_not hs) (sep_not hs2) e
  exact no_break hD.is (gap_not hw) e

theorem eu_eu {t : Text} {d d' : Moment} (h : Written .euDate t d) (h' : Written .euTime t d') : False := by
  obtain ⟨Y, M, D, s, hY, hM, hD, hs, rfl, rfl⟩ := h
  obtain ⟨Y', M', D', s', h, m, w, hY', hM', hD', hs', hh, hm, hw, ⟨e, -⟩ | ⟨s'', hs'', e, -⟩⟩ := h'
  · obtain ⟨-, -, e⟩ := run_unique hD.is hD'.is (sep_not hs) (sep_not hs') e
    obtain ⟨-, -, e⟩ := run_unique hM.is hM'.is (sep_not hs) (sep_not hs') e
    exact no_break hY.is (gap_not hw) e
  · obtain ⟨-, -, e⟩ := run_unique hD.is hD'.is (sep_not hs) (sep_not hs') e
    obtain ⟨-, -, e⟩ := run_unique hM.is hM'.is (sep_not hs) (sep_not hs') e
    exact no_break hY.is (gap_not hw) e

theorem style_unique {a b : Style} {t : Text} {d d' : Moment} (h : Written a t d) (h' : Written b t d') : a = b := by
  rcases head_shape h with ⟨rfl, n⟩ | ⟨ha, A, c, X, hA, hc, e, l⟩ | ⟨ha, A, c, X, hA, hc, e, l⟩ <;>
    rcases head_shape h' with ⟨rfl, n'⟩ | ⟨hb, B, c', X', hB, hc', e', l'⟩ | ⟨hb, B, c', X', hB, hc', e', l'⟩
  · rfl
  · exact (no_break n hc' e').elim
  · exact (no_break n hc' e').elim
  · exact (no_break n' hc e).elim
  · rcases ha with rfl | rfl <;> rcases hb with rfl | rfl
    · rfl
    · exact (iso_iso h h').elim
    · exact (iso_iso h' h).elim
    · rfl
  · obtain ⟨e1, -, -⟩ := run_unique hA hB hc hc' (e.symm.trans e')
    rw [e1] at l; omega
  · exact (no_break n' hc e).elim
  · obtain ⟨e1, -, -⟩ := run_unique hA hB hc hc' (e.symm.trans e')
    rw [e1] at l; omega
  · rcases ha with rfl | rfl <;> rcases hb with rfl | rfl
    · rfl
    · exact (eu_eu h h').elim
    · exact (eu_eu h' h).elim
    · rfl

/-- **No ambiguity.** A text says at most one moment: whatever the style, there is no second reading. -/
theorem C87_one_reading (a b : Style) (t : Text) (d d' : Moment) (h : Written a t d) (h' : Written b t d') :
    a = b ∧ d = d' := by
  have hab := style_unique h h'
  refine ⟨hab, ?_⟩
  subst hab
  cases a with
  | year => rw [h.2, h'.2]
  | isoDate =>
    obtain ⟨Y, M, D, s, hY, hM, hD, hs, rfl, rfl⟩ := h
    obtain ⟨Y', M', D', s', hY', hM', hD', hs', e, rfl⟩ := h'
    obtain ⟨rfl, -, e⟩ := run_unique hY.is hY'.is (sep_not hs) (sep_not hs') e
    obtain ⟨rfl, -, rfl⟩ := run_unique hM.is hM'.is (sep_not hs) (sep_not hs') e
    rfl
  | isoTime =>
    obtain ⟨Y, M, D, h, m, s, s₁, s₂, w, hY, hM, hD, hh, hm, hs, hs1, hs2, hw, rfl, rfl⟩ := h
    obtain ⟨Y', M', D', h', m', s', s₁', s₂', w', hY', hM', hD', hh', hm', hs', hs1', hs2', hw', e, rfl⟩ := h'
    obtain ⟨rfl, -, e⟩ := run_unique hY.is hY'.is (sep_not hs1) (sep_not hs1') e
    obtain ⟨rfl, -, e⟩ := run_unique hM.1.is hM'.1.is (sep_not hs2) (sep_not hs2') e
    obtain ⟨rfl, -, e⟩ := run_unique hD.1.is hD'.1.is (gap_not hw) (gap_not hw') e
    obtain ⟨rfl, -, e⟩ := run_unique hh.1.is hh'.1.is colon_not colon_not e
    obtain ⟨rfl, -, rfl⟩ := run_unique hm.1.is hm'.1.is colon_not colon_not e
    rfl
  | euDate =>
    obtain ⟨Y, M, D, s, hY, hM, hD, hs, rfl, rfl⟩ := h
    obtain ⟨Y', M', D', s', hY', hM', hD', hs', e, rfl⟩ := h'
    obtain ⟨rfl, -, e⟩ := run_unique hD.is hD'.is (sep_not hs) (sep_not hs') e
    obtain ⟨rfl, -, rfl⟩ := run_unique hM.is hM'.is (sep_not hs) (sep_not hs') e
    rfl
  | euTime =>
    obtain ⟨Y, M, D, s, h, m, w, hY, hM, hD, hs, hh, hm, hw, ⟨rfl, rfl⟩ | ⟨q, hq, rfl, rfl⟩⟩ := h <;>
    obtain ⟨Y', M', D', s', h', m', w', hY', hM', hD', hs', hh', hm', hw', ⟨e, rfl⟩ | ⟨q', hq', e, rfl⟩⟩ := h' <;>
    obtain ⟨rfl, -, e⟩ := run_unique hD.is hD'.is (sep_not hs) (sep_not hs') e <;>
    obtain ⟨rfl, -, e⟩ := run_unique hM.is hM'.is (sep_not hs) (sep_not hs') e <;>
    obtain ⟨rfl, -, e⟩ := run_unique hY.is hY'.is (gap_not hw) (gap_not hw') e <;>
    obtain ⟨rfl, -, e⟩ := run_unique hh.is hh'.is colon_not colon_not e
    · rw [e]
    · exact (no_break hm.is colon_not e).elim
    · exact (no_break hm'.is colon_not e.symm).elim
    · obtain ⟨rfl, -, rfl⟩ := run_unique hm.is hm'.is colon_not colon_not e
      rfl

/-! ## The whole column -/

theorem toDatetime_iff (reader : Fmt → Text → Option Moment) (f : Fmt) : ∀ (ts : List Text) (ds : List Moment),
    toDatetime reader f ts = .ok ds ↔ List.Forall₂ (fun t d => reader f t = some d) ts ds := by
  intro ts
  induction ts with
  | nil =>
    intro ds
    simp only [toDatetime, List.forall₂_nil_left_iff]
    exact ⟨fun h => (Except.ok.inj h).symm, fun h => by rw [h]⟩
  | cons t ts ih =>
    intro ds
    unfold toDatetime
    cases hr : reader f t with
    | none =>
      simp only
      constructor
      · intro h; cases h
      · rintro (_ | ⟨h, -⟩)
        rw [hr] at h; cases h
    | some m =>
      simp only
      cases hm : toDatetime reader f ts with
      | error e =>
        simp only
        constructor
        · intro h; cases h
        · intro h
          cases h with
          | cons h1 h2 => rw [(ih _).mpr h2] at hm; cases hm
      | ok ms =>
        simp only
        constructor
        · intro h
          cases Except.ok.inj h
          exact .cons hr ((ih ms).mp hm)
        · intro h
          cases h with
          | cons h1 h2 =>
            rw [hr] at h1
            cases Option.some.inj h1
            rw [(ih _).mpr h2] at hm
            cases Except.ok.inj hm
            rfl

/-- The pattern of a style. -/
def pattern : Style → Re
  | .year => yearOnly
  | .isoDate => isoDate
  | .isoTime => isoDatetime
  | .euDate => euDate
  | .euTime => euDatetime

theorem pattern_iff (st : Style) {t : Text} (hp : Plain t) : (pattern st).full t = true ↔ ∃ d, Written st t d := by
  rw [full_iff]
  cases st with
  | year => exact year_written t
  | isoDate => exact isoDate_written t
  | isoTime => exact isoTime_written t hp
  | euDate => exact euDate_written t
  | euTime => exact euTime_written t hp

theorem branch {reader : Fmt → Text → Option Moment} {valid : Moment → Bool} (hr : Promise reader valid) (st : Style)
    {texts : List Text} (hp : ∀ t ∈ texts, Plain t) (ha : texts.all (pattern st).full = true) (ds : List Moment) :
    toDatetime reader (call st) (texts.map normalise) = .ok ds ↔
      List.Forall₂ (fun t d => Written st t d ∧ valid d = true) texts ds := by
  rw [toDatetime_iff, List.forall₂_map_left_iff]
  induction texts generalizing ds with
  | nil => simp
  | cons t texts ih =>
    have hpt := hp t (by simp)
    simp only [List.all_cons, Bool.and_eq_true] at ha
    obtain ⟨d, hd⟩ := (pattern_iff st hpt).mp ha.1
    have hread := reads hr hd
    have ih' := fun ds => ih (fun u hu => hp u (by simp [hu])) ha.2 ds
    constructor
    · rintro (_ | ⟨h1, h2⟩)
      refine .cons ?_ ((ih' _).mp h2)
      rw [hread] at h1
      split_ifs at h1 with hv
      cases Option.some.inj h1
      exact ⟨hd, hv⟩
    · rintro (_ | ⟨h1, h2⟩)
      refine .cons ?_ ((ih' _).mpr h2)
      rw [reads hr h1.1, if_pos h1.2]

/-- **Dates are read as written, all in one style, or not at all.** For plain texts, the column is accepted with certain
moments exactly when there is one style in which every text says its moment, and all moments exist. In particular a
slash, dot or dash makes no difference, and in a date that ends with the year the day comes first. -/
theorem C87_read_as_written (reader : Fmt → Text → Option Moment) (valid : Moment → Bool) (hr : Promise reader valid)
    (texts : List Text) (hp : ∀ t ∈ texts, Plain t) (ds : List Moment) :
    parse reader texts = .ok ds ↔
      ∃ st, List.Forall₂ (fun t d => Written st t d ∧ valid d = true) texts ds := by
  -- all texts match the pattern of a style when they are written in it
  have all_of : ∀ st, List.Forall₂ (fun t d => Written st t d ∧ valid d = true) texts ds → texts.all (pattern st).full = true := by
    intro st h
    rw [List.all_eq_true]
    intro t ht
    obtain ⟨i, hi, rfl⟩ := List.getElem_of_mem ht
    have hl := h.length_eq
    have := (List.forall₂_iff_get.mp h).2 i hi (by omega)
    exact (pattern_iff st (hp _ ht)).mpr ⟨_, this.1⟩
  have only : ∀ a b, texts ≠ [] → texts.all (pattern a).full = true → texts.all (pattern b).full = true → a = b := by
    intro a b hne ha hb
    cases texts with
    | nil => exact absurd rfl hne
    | cons t ts =>
      simp only [List.all_cons, Bool.and_eq_true] at ha hb
      obtain ⟨d, hd⟩ := (pattern_iff a (hp t (by simp))).mp ha.1
      obtain ⟨d', hd'⟩ := (pattern_iff b (hp t (by simp))).mp hb.1
      exact style_unique hd hd'
  by_cases hne : texts = []
  · subst hne
    have : parse reader [] = .ok [] := rfl
    rw [this]
    constructor
    · intro h; cases Except.ok.inj h; exact ⟨.year, .nil⟩
    · rintro ⟨_, h⟩; cases h; rfl
  have none_of : ∀ a b, a ≠ b → texts.all (pattern a).full = true → ¬ texts.all (pattern b).full = true :=
    fun a b hab ha hb => hab (only a b hne ha hb)
  have back : ∀ st, texts.all (pattern st).full = true →
      (∃ s, List.Forall₂ (fun t d => Written s t d ∧ valid d = true) texts ds) →
      List.Forall₂ (fun t d => Written st t d ∧ valid d = true) texts ds := by
    rintro st ha ⟨s, hs⟩
    rw [only st s hne ha (all_of s hs)]
    exact hs
  unfold parse
  simp only
  by_cases h1 : texts.all yearOnly.full = true
  · rw [if_pos h1]
    rw [show Fmt.year = call .year from rfl, branch hr .year hp h1]
    exact ⟨fun h => ⟨_, h⟩, back .year h1⟩
  rw [if_neg h1]
  by_cases h2 : texts.all isoDatetime.full = true
  · rw [if_pos h2, show Fmt.iso = call .isoTime from rfl, branch hr .isoTime hp h2]
    exact ⟨fun h => ⟨_, h⟩, back .isoTime h2⟩
  rw [if_neg h2]
  by_cases h3 : texts.all isoDate.full = true
  · rw [if_pos h3, show Fmt.iso = call .isoDate from rfl, branch hr .isoDate hp h3]
    exact ⟨fun h => ⟨_, h⟩, back .isoDate h3⟩
  rw [if_neg h3]
  by_cases h4 : texts.all euDatetime.full = true
  · rw [if_pos h4, show Fmt.dayFirst = call .euTime from rfl, branch hr .euTime hp h4]
    exact ⟨fun h => ⟨_, h⟩, back .euTime h4⟩
  rw [if_neg h4]
  by_cases h5 : texts.all euDate.full = true
  · rw [if_pos h5, show Fmt.dayFirst = call .euDate from rfl, branch hr .euDate hp h5]
    exact ⟨fun h => ⟨_, h⟩, back .euDate h5⟩
  rw [if_neg h5]
  constructor
  · intro h; cases h
  · rintro ⟨st, h⟩
    have := all_of st h
    cases st with
    | year => exact absurd this h1
    | isoDate => exact absurd this h3
    | isoTime => exact absurd this h2
    | euDate => exact absurd this h5
    | euTime => exact absurd this h4

/-- **Month first is refused.** A column with a date whose second number is above 12, the first being short, is not
accepted, whatever pandas would make of it. -/
theorem C87_month_first_refused (reader : Fmt → Text → Option Moment) (texts : List Text) (A B C : Text) (s : Char)
    (hs : s ∈ ".-/".toList) (hA : Num A) (hl : A.length ≤ 2) (hB : Num B) (hb : 12 < num B)
    (hm : A ++ s :: (B ++ s :: C) ∈ texts) (hp : ∀ t ∈ texts, Plain t) (ds : List Moment) : parse reader texts ≠ .ok ds := by
  have none : ∀ st, ¬ texts.all (pattern st).full = true := by
    intro st ha
    rw [List.all_eq_true] at ha
    obtain ⟨d, hd⟩ := (pattern_iff st (hp _ hm)).mp (ha _ hm)
    have eu : ∀ D M X Y (s' : Char), Short 1 31 D → Short 1 12 M → s' ∈ ".-/".toList → Y = s' :: X →
        A ++ s :: (B ++ s :: C) = D ++ s' :: (M ++ Y) → False := by
      rintro D M X _ s' hD hM hs' rfl e
      obtain ⟨-, -, e⟩ := run_unique hA hD.is (sep_not hs) (sep_not hs') e
      obtain ⟨rfl, -, -⟩ := run_unique hB hM.is (sep_not hs) (sep_not hs') e
      have := hM.2.2
      omega
    rcases head_shape hd with ⟨rfl, n⟩ | ⟨-, A', c, X, hA', hc, e, l⟩ | ⟨hst, -⟩
    · exact no_break n (sep_not hs) rfl
    · obtain ⟨rfl, -, -⟩ := run_unique hA hA' (sep_not hs) hc e
      omega
    · rcases hst with rfl | rfl
      · obtain ⟨Y, M, D, s', hY, hM, hD, hs', e, -⟩ := hd
        exact eu D M _ _ s' hD hM hs' rfl e
      · obtain ⟨Y, M, D, s', h, m, w, hY, hM, hD, hs', hh, hm', hw, ⟨e, -⟩ | ⟨q, hq, e, -⟩⟩ := hd
        · exact eu D M _ _ s' hD hM hs' rfl e
        · exact eu D M _ _ s' hD hM hs' rfl e
  unfold parse
  simp only
  have n1 : ¬ texts.all yearOnly.full = true := none .year
  have n2 : ¬ texts.all isoDatetime.full = true := none .isoTime
  have n3 : ¬ texts.all isoDate.full = true := none .isoDate
  have n4 : ¬ texts.all euDatetime.full = true := none .euTime
  have n5 : ¬ texts.all euDate.full = true := none .euDate
  rw [if_neg n1, if_neg n2, if_neg n3, if_neg n4, if_neg n5]
  intro h; cases h

/-- **Deviation: fractions of a second.** They are part of the accepted pattern, but the dot in front of them is turned
into a dash, so pandas is given something that reads as an offset from UTC. -/
theorem C87_fraction (reader : Fmt → Text → Option Moment) (f : Text) (hf : Num f) (hne : f ≠ []) :
    parse reader ["2024-01-31 13:37:59.".toList ++ f] =
      toDatetime reader .iso ["2024-01-31 13:37:59-".toList ++ f] := by
  have hpre : "2024-01-31 13:37:59.".toList = ['2','0','2','4','-','0','1','-','3','1',' ','1','3',':','3','7',':','5','9','.'] := rfl
  have h1 : ¬ yearOnly.full ("2024-01-31 13:37:59.".toList ++ f) = true := by
    rw [full_iff, year_written]
    rintro ⟨d, h⟩
    have := h.1.1
    rw [hpre] at this
    simp at this
  have h2 : isoDatetime.full ("2024-01-31 13:37:59.".toList ++ f) = true := by
    rw [full_iff, hpre]
    have hc : ∀ c (t : Text), Lang (.set [c]) [c] := fun c _ => (lang_char c _).mpr rfl
    obtain ⟨c, g, rfl⟩ := List.exists_cons_of_ne_nil hne
    refine ⟨[], _, rfl, .inr rfl, [], _, rfl, .inr rfl, ['2','0','2','4'], _, rfl, ?_, ['-'], _, rfl, ?_, ['0','1'], _, rfl, ?_,
      ['-'], _, rfl, ?_, ['3','1'], _, rfl, ?_, [' '], _, rfl, ?_, ['1','3'], _, rfl, ?_, [':'], _, rfl, ?_, ['3','7'], _, rfl, ?_,
      [':'], _, rfl, ?_, ['5','9'], _, rfl, ?_, '.' :: c :: g, [], by simp, .inl ?_, .inr rfl⟩
    · rw [← full_iff]; decide +kernel
    · rw [← full_iff]; decide +kernel
    · rw [← full_iff]; decide +kernel
    · rw [← full_iff]; decide +kernel
    · rw [← full_iff]; decide +kernel
    · rw [← full_iff]; decide +kernel
    · rw [← full_iff]; decide +kernel
    · rw [← full_iff]; decide +kernel
    · rw [← full_iff]; decide +kernel
    · rw [← full_iff]; decide +kernel
    · rw [← full_iff]; decide +kernel
    · exact ⟨['.'], _, rfl, hc _ [], [c], g, rfl, ⟨c, hf c (by simp), rfl⟩, fun x hx => hf x (by simp [hx])⟩
  unfold parse
  simp only [List.all_cons, List.all_nil, Bool.and_true, List.map_cons, List.map_nil]
  rw [if_neg h1, if_pos h2, normalise_append]
  have hn : normalise f = f := normalise_digits (n := f.length) ⟨rfl, hf⟩
  rw [hn]
  congr 2

/-! ## Examples -/

example : Written .euDate "1/12/2024".toList ⟨2024, 12, 1, 0, 0, 0⟩ :=
  ⟨"2024".toList, "12".toList, "1".toList, '/', by unfold Digits; decide, by unfold Short Digits; decide +kernel,
    by unfold Short Digits; decide +kernel, by decide, by decide, by decide +kernel⟩
example : euDate.full "31.01.2024".toList = true ∧ euDate.full "31.01-2024".toList = false ∧
    euDate.full "01.31.2024".toList = false ∧ isoDatetime.full "2024-01-31 13:37".toList = false ∧
    euDatetime.full "31.01.2024 13:37".toList = true := by decide +kernel
/-- Mixed separators are accepted with a time and refused without. -/
example : isoDatetime.full "2024-01/31 13:37:59".toList = true ∧ isoDate.full "2024-01/31".toList = false := by decide +kernel
/-- A one-digit month is accepted without a time and refused with one. -/
example : isoDate.full "2024-1-31".toList = true ∧ isoDatetime.full "2024-1-31 13:37:59".toList = false := by decide +kernel
/-- Mixed styles are refused. -/
example (reader : Fmt → Text → Option Moment) : parse reader ["2024-01-31".toList, "01.02.2024".toList] = .error .value := by
  have h : ["2024-01-31".toList, "01.02.2024".toList].all yearOnly.full = false ∧
    ["2024-01-31".toList, "01.02.2024".toList].all isoDatetime.full = false ∧
    ["2024-01-31".toList, "01.02.2024".toList].all isoDate.full = false ∧
    ["2024-01-31".toList, "01.02.2024".toList].all euDatetime.full = false ∧
    ["2024-01-31".toList, "01.02.2024".toList].all euDate.full = false := by decide +kernel
  simp only [parse, h.1, h.2.1, h.2.2.1, h.2.2.2.1, h.2.2.2.2, Bool.false_eq_true, if_false]

end Verif.C87
