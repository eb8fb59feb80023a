import Verif.Model.Version
import Mathlib.Data.List.Induction

/-!
C34: versions are totally ordered by their numbers, and printing followed by parsing is the identity.
-/

namespace Verif.C34

open Verif.Time Verif.VersionModel

/-- What is assumed about the Unicode digit table: ASCII digits have their value; the characters that structure a
version string are not digits. -/
structure Table (digit : Char → Option Nat) : Prop where
  ascii : ∀ c : Char, c.isDigit = true → digit c = some (c.toNat - '0'.toNat)
  dot : digit '.' = none
  newline : digit '\n' = none
  v : digit 'v' = none
  V : digit 'V' = none
  minus : digit '-' = none

/-- The table of the ASCII digits. -/
def ascii (c : Char) : Option Nat := if c.isDigit then some (c.toNat - '0'.toNat) else none

theorem table_ascii : Table ascii :=
  ⟨fun c h => by simp [ascii, h], by decide, by decide, by decide, by decide, by decide⟩

/-- A non-empty string of digits. -/
def Numeral (digit : Char → Option Nat) (ds : List Char) : Prop := ds ≠ [] ∧ ∀ c ∈ ds, (digit c).isSome = true

/-- The number a string of digits stands for. -/
inductive Value (digit : Char → Option Nat) : List Char → Nat → Prop where
  | nil : Value digit [] 0
  | snoc {ds : List Char} {n d : Nat} {c : Char} : Value digit ds n → digit c = some d →
      Value digit (ds ++ [c]) (10 * n + d)

/-- An optional `.digits`. -/
def group : Option (List Char) → List Char
  | none => []
  | some ds => '.' :: ds

/-- The shape of a version string: optional `v`, one to three numbers separated by dots, optional final newline. -/
def Shape (digit : Char → Option Nat) (s a : List Char) (b c : Option (List Char)) : Prop :=
  ∃ p e : List Char, (p = [] ∨ p = ['v'] ∨ p = ['V']) ∧ (e = [] ∨ e = ['\n']) ∧
    s = p ++ (a ++ (group b ++ (group c ++ e))) ∧ Numeral digit a ∧ (∀ x, b = some x → Numeral digit x) ∧
    (∀ x, c = some x → Numeral digit x) ∧ (b = none → c = none)

variable {digit : Char → Option Nat}

/-- `s` does not start with a digit. -/
def NoDigit (digit : Char → Option Nat) (s : List Char) : Prop := ∀ c cs, s = c :: cs → digit c = none

theorem digits_append (ds r : List Char) (hd : ∀ c ∈ ds, (digit c).isSome = true) (hr : NoDigit digit r) :
    digits digit (ds ++ r) = (ds, r) := by
  induction ds with
  | nil =>
    cases r with
    | nil => rfl
    | cons c cs => simp [digits, hr c cs rfl]
  | cons d ds ih =>
    have := ih fun c h => hd c (by simp [h])
    simp [digits, hd d (by simp), this]

theorem digits_spec (s : List Char) : s = (digits digit s).1 ++ (digits digit s).2 ∧
    (∀ c ∈ (digits digit s).1, (digit c).isSome = true) ∧ NoDigit digit (digits digit s).2 := by
  induction s with
  | nil => refine ⟨rfl, by simp [digits], ?_⟩; intro c cs h; simp [digits] at h
  | cons c cs ih =>
    obtain ⟨h1, h2, h3⟩ := ih
    by_cases hc : (digit c).isSome = true
    · simp only [digits, hc, if_true]
      refine ⟨by simp [← h1], ?_, h3⟩
      intro x hx
      rcases List.mem_cons.1 hx with rfl | hx
      · exact hc
      · exact h2 x hx
    · simp only [digits, hc, Bool.false_eq_true, if_false]
      refine ⟨rfl, by simp, ?_⟩
      intro x xs h
      simp only [List.cons.injEq] at h
      rw [← h.1]
      simpa using hc

theorem dot_some (ds r : List Char) (hd : Numeral digit ds) (hr : NoDigit digit r) :
    dotDigits digit ('.' :: (ds ++ r)) = (some ds, r) := by
  simp [dotDigits, digits_append ds r hd.2 hr, hd.1]

theorem dot_none (s : List Char) (h : ∀ cs, s = '.' :: cs → NoDigit digit cs) : dotDigits digit s = (none, s) := by
  unfold dotDigits
  split
  · rename_i cs
    have := digits_append (digit := digit) [] cs (by simp) (h cs rfl)
    simp only [List.nil_append] at this
    simp [this]
  · rfl

theorem dot_spec (s : List Char) :
    (∃ ds, (dotDigits digit s).1 = some ds ∧ s = '.' :: (ds ++ (dotDigits digit s).2) ∧ Numeral digit ds ∧
      NoDigit digit (dotDigits digit s).2) ∨
    (dotDigits digit s = (none, s)) := by
  unfold dotDigits
  split
  · rename_i cs
    obtain ⟨h1, h2, h3⟩ := digits_spec (digit := digit) cs
    simp only
    split
    · exact .inr rfl
    · rename_i hne
      exact .inl ⟨_, rfl, by simp [← h1], ⟨hne, h2⟩, h3⟩
  · exact .inr rfl

theorem no_digit_end (ht : Table digit) (e : List Char) (h : e = [] ∨ e = ['\n']) : NoDigit digit e := by
  rintro c cs rfl
  rcases h with h | h
  · simp at h
  · simp only [List.cons.injEq] at h; rw [h.1]; exact ht.newline

theorem no_digit_group (ht : Table digit) (g : Option (List Char)) (r : List Char) (h : NoDigit digit r) :
    NoDigit digit (group g ++ r) := by
  cases g with
  | none => simpa [group] using h
  | some ds =>
    intro c cs e
    simp only [group, List.cons_append, List.cons.injEq] at e
    rw [← e.1]; exact ht.dot

theorem match_of_shape (ht : Table digit) (a : List Char) (b c : Option (List Char)) (e : List Char)
    (he : e = [] ∨ e = ['\n']) (ha : Numeral digit a) (hb : ∀ x, b = some x → Numeral digit x)
    (hc : ∀ x, c = some x → Numeral digit x) (hbc : b = none → c = none) :
    matchVersion digit (a ++ (group b ++ (group c ++ e))) = some (a, b, c) := by
  have hend : dotDigits digit e = (none, e) := by
    apply dot_none
    rintro cs rfl
    rcases he with h | h <;> simp at h
  have hcd : dotDigits digit (group c ++ e) = (c, e) := by
    cases c with
    | none => simpa [group] using hend
    | some x =>
      have := dot_some x e (hc x rfl) (no_digit_end ht e he)
      simpa [group] using this
  have hbd : dotDigits digit (group b ++ (group c ++ e)) = (b, group c ++ e) := by
    cases b with
    | none =>
      have hcn := hbc rfl
      subst hcn
      simpa [group] using hend
    | some x =>
      have := dot_some x (group c ++ e) (hb x rfl) (no_digit_group ht c e (no_digit_end ht e he))
      simpa [group] using this
  have had := digits_append a (group b ++ (group c ++ e)) ha.2
    (no_digit_group ht b _ (no_digit_group ht c e (no_digit_end ht e he)))
  unfold matchVersion
  simp only [had, ha.1, if_false, hbd, hcd]
  simp [atEnd, he]

theorem shape_of_match (s a : List Char) (b c : Option (List Char))
    (h : matchVersion digit s = some (a, b, c)) :
    ∃ e : List Char, (e = [] ∨ e = ['\n']) ∧ s = a ++ (group b ++ (group c ++ e)) ∧ Numeral digit a ∧
      (∀ x, b = some x → Numeral digit x) ∧ (∀ x, c = some x → Numeral digit x) ∧ (b = none → c = none) := by
  unfold matchVersion at h
  simp only at h
  split at h
  · simp at h
  · rename_i hne
    split at h
    · rename_i hend
      simp only [Option.some.injEq, Prod.mk.injEq] at h
      obtain ⟨rfl, rfl, rfl⟩ := h
      obtain ⟨d1, d2, d3⟩ := digits_spec (digit := digit) s
      simp only [atEnd, decide_eq_true_eq] at hend
      refine ⟨_, hend, ?_, ⟨hne, d2⟩, ?_, ?_, ?_⟩
      · rcases dot_spec (digit := digit) (digits digit s).2 with ⟨x, hx, hs, -, -⟩ | hx
        · rcases dot_spec (digit := digit) (dotDigits digit (digits digit s).2).2 with ⟨y, hy, hs', -, -⟩ | hy
          · rw [hx, hy]
            simp only [group, List.cons_append]
            rw [← hs', ← hs, ← d1]
          · rw [hx, hy]
            simp only [group, List.nil_append, List.cons_append]
            rw [← hs, ← d1]
        · rw [hx]
          simp only
          rw [hx]
          simp only [group, List.nil_append]
          exact d1
      · intro x hx
        rcases dot_spec (digit := digit) (digits digit s).2 with ⟨y, hy, -, hn, -⟩ | hy
        · rw [hy] at hx; simp only [Option.some.injEq] at hx; rw [← hx]; exact hn
        · rw [hy] at hx; simp at hx
      · intro x hx
        rcases dot_spec (digit := digit) (dotDigits digit (digits digit s).2).2 with ⟨y, hy, -, hn, -⟩ | hy
        · rw [hy] at hx; simp only [Option.some.injEq] at hx; rw [← hx]; exact hn
        · rw [hy] at hx; simp at hx
      · intro hb
        rcases dot_spec (digit := digit) (digits digit s).2 with ⟨y, hy, -, -, -⟩ | hy
        · rw [hy] at hb; simp at hb
        · rw [hy]; simp only; rw [hy]
    · simp at h

theorem strip_shape (ht : Table digit) (p r : List Char) (hp : p = [] ∨ p = ['v'] ∨ p = ['V'])
    (hr : ∃ c cs, r = c :: cs ∧ (digit c).isSome = true) : stripV (p ++ r) = r := by
  obtain ⟨c, cs, rfl, hc⟩ := hr
  rcases hp with rfl | rfl | rfl
  · simp only [List.nil_append]
    unfold stripV
    split
    · rename_i h; simp only [List.cons.injEq] at h; rw [h.1, ht.v] at hc; simp at hc
    · rename_i h; simp only [List.cons.injEq] at h; rw [h.1, ht.V] at hc; simp at hc
    · rfl
  · rfl
  · rfl

theorem strip_cases (s : List Char) : ∃ p, (p = [] ∨ p = ['v'] ∨ p = ['V']) ∧ s = p ++ stripV s := by
  unfold stripV
  split
  · exact ⟨['v'], by simp, by simp⟩
  · exact ⟨['V'], by simp, by simp⟩
  · exact ⟨[], by simp, by simp⟩

theorem match_iff (ht : Table digit) (s a : List Char) (b c : Option (List Char)) :
    matchVersion digit (stripV s) = some (a, b, c) ↔ Shape digit s a b c := by
  constructor
  · intro h
    obtain ⟨e, h1, h2, h3, h4, h5, h6⟩ := shape_of_match _ a b c h
    obtain ⟨p, hp, hs⟩ := strip_cases s
    exact ⟨p, e, hp, h1, by rw [← h2]; exact hs, h3, h4, h5, h6⟩
  · rintro ⟨p, e, hp, h1, rfl, h3, h4, h5, h6⟩
    rw [strip_shape ht p _ hp]
    · exact match_of_shape ht a b c e h1 h3 h4 h5 h6
    · obtain ⟨hne, hd⟩ := h3
      cases a with
      | nil => simp at hne
      | cons x xs => exact ⟨x, _, by simp; rfl, hd x (by simp)⟩

theorem value_fold (ds : List Char) (n : Nat) (h : Value digit ds n) :
    ds.foldl (fun acc c => 10 * acc + (digit c).getD 0) 0 = n := by
  induction h with
  | nil => rfl
  | snoc _ hc ih => simp [List.foldl_append, ih, hc]

theorem value_exists (ds : List Char) (h : ∀ c ∈ ds, (digit c).isSome = true) : ∃ n, Value digit ds n := by
  induction ds using List.reverseRecOn with
  | nil => exact ⟨0, .nil⟩
  | append_singleton ds c ih =>
    obtain ⟨n, hn⟩ := ih fun x hx => h x (by simp [hx])
    have := h c (by simp)
    rw [Option.isSome_iff_exists] at this
    obtain ⟨d, hd⟩ := this
    exact ⟨_, .snoc hn hd⟩

theorem parseInt_ok (ds : List Char) (n : Nat) (hl : ds.length ≤ maxDigits) (h : Value digit ds n) :
    parseInt digit ds = .ok (n : Int) := by
  unfold parseInt
  rw [if_neg (by omega), value_fold ds n h]

/-- The number of an optional group. -/
def GroupValue (digit : Char → Option Nat) (g : Option (List Char)) (n : Nat) : Prop :=
  match g with
  | none => n = 0
  | some ds => Value digit ds n ∧ ds.length ≤ maxDigits

/-- **C34.** A string of the right shape is parsed to the numbers it shows; missing numbers are 0. -/
theorem C34_parse (ht : Table digit) (s a : List Char) (b c : Option (List Char)) (h : Shape digit s a b c)
    (x y z : Nat) (hx : GroupValue digit (some a) x) (hy : GroupValue digit b y) (hz : GroupValue digit c z) :
    fromString digit (some s) = .ok ⟨x, y, z⟩ := by
  have hg : ∀ (g : Option (List Char)) (n : Nat), GroupValue digit g n → parseGroup digit g = .ok (n : Int) := by
    intro g n hn
    cases g with
    | none => simp only [GroupValue] at hn; subst hn; rfl
    | some ds => exact parseInt_ok ds n hn.2 hn.1
  simp only [fromString, (match_iff ht s a b c).2 h]
  have h1 := hg (some a) x hx
  simp only [parseGroup] at h1
  rw [h1, hg b y hy, hg c z hz]
  rfl

/-- **C34.** Any other string, and a missing one, is version 0.0.0: malformed versions are not reported. -/
theorem C34_malformed (ht : Table digit) (s : List Char) (h : ¬ ∃ a b c, Shape digit s a b c) :
    fromString digit (some s) = .ok .zero ∧ fromString digit none = .ok .zero := by
  refine ⟨?_, rfl⟩
  cases hm : matchVersion digit (stripV s) with
  | none => simp only [fromString, hm]
  | some t =>
    obtain ⟨a, b, c⟩ := t
    exact absurd ⟨a, b, c, (match_iff ht s a b c).1 hm⟩ h

/-- **C34.** Two readings of the same string agree. -/
theorem C34_unambiguous (ht : Table digit) (s a a' : List Char) (b b' c c' : Option (List Char))
    (h : Shape digit s a b c) (h' : Shape digit s a' b' c') : a = a' ∧ b = b' ∧ c = c' := by
  have h1 := (match_iff ht s a b c).2 h
  rw [(match_iff ht s a' b' c').2 h'] at h1
  simp only [Option.some.injEq, Prod.mk.injEq] at h1
  exact ⟨h1.1.symm, h1.2.1.symm, h1.2.2.symm⟩

theorem toDigits_numeral (ht : Table digit) (n : Nat) : Numeral digit (Nat.toDigits 10 n) := by
  refine ⟨Nat.toDigits_ne_nil, ?_⟩
  intro c hc
  rw [ht.ascii c (Nat.isDigit_of_mem_toDigits (by decide) (by decide) hc)]
  rfl

theorem toDigits_value (ht : Table digit) (n : Nat) : Value digit (Nat.toDigits 10 n) n := by
  obtain ⟨m, hm⟩ := value_exists (Nat.toDigits 10 n) (toDigits_numeral ht n).2
  have h1 := value_fold _ _ hm
  have h2 : (Nat.toDigits 10 n).foldl (fun acc c => 10 * acc + (digit c).getD 0) 0 =
      Nat.ofDigitChars 10 (Nat.toDigits 10 n) 0 := by
    rw [Nat.ofDigitChars_eq_foldl]
    have : ∀ (l : List Char) (init : Nat), (∀ c ∈ l, c.isDigit = true) →
        l.foldl (fun acc c => 10 * acc + (digit c).getD 0) init =
        l.foldl (fun sofar c => 10 * sofar + (c.toNat - '0'.toNat)) init := by
      intro l
      induction l with
      | nil => intro init _; rfl
      | cons c l ih =>
        intro init hl
        simp only [List.foldl_cons]
        rw [ht.ascii c (hl c (by simp))]
        exact ih _ fun x hx => hl x (by simp [hx])
    exact this _ _ fun c hc => Nat.isDigit_of_mem_toDigits (by decide) (by decide) hc
  rw [h2, Nat.ofDigitChars_ten_toDigits] at h1
  subst h1
  exact hm

theorem showInt_ok (n : Int) (s : List Char) (h : showInt n = .ok s) :
    (Nat.toDigits 10 n.natAbs).length ≤ maxDigits ∧
    s = if n < 0 then '-' :: Nat.toDigits 10 n.natAbs else Nat.toDigits 10 n.natAbs := by
  unfold showInt at h
  simp only at h
  split at h
  · simp at h
  · rename_i hl
    simp only [Except.ok.injEq] at h
    exact ⟨by omega, h.symm⟩

theorem toStr_ok (v : Version) (s : List Char) (h : v.toStr = .ok s) : ∃ a b c,
    showInt v.major = .ok a ∧ showInt v.minor = .ok b ∧ showInt v.patch = .ok c ∧ s = a ++ ['.'] ++ b ++ ['.'] ++ c := by
  unfold Version.toStr at h
  simp only [Bind.bind, Except.bind, Pure.pure, Except.pure] at h
  split at h
  · simp at h
  · rename_i a ha
    split at h
    · simp at h
    · rename_i b hb
      split at h
      · simp at h
      · rename_i c hc
        simp only [Except.ok.injEq] at h
        exact ⟨a, b, c, ha, hb, hc, h.symm⟩

/-- **C34.** Printing a version and parsing the result gives the version back. -/
theorem C34_round_trip (ht : Table digit) (v : Version) (s : List Char) (h : v.toStr = .ok s)
    (h1 : 0 ≤ v.major) (h2 : 0 ≤ v.minor) (h3 : 0 ≤ v.patch) : fromString digit (some s) = .ok v := by
  obtain ⟨a, b, c, ha, hb, hc, rfl⟩ := toStr_ok v s h
  obtain ⟨la, rfl⟩ := showInt_ok _ _ ha
  obtain ⟨lb, rfl⟩ := showInt_ok _ _ hb
  obtain ⟨lc, rfl⟩ := showInt_ok _ _ hc
  rw [if_neg (by omega : ¬ v.major < 0), if_neg (by omega : ¬ v.minor < 0), if_neg (by omega : ¬ v.patch < 0)]
  have := C34_parse ht (Nat.toDigits 10 v.major.natAbs ++ ['.'] ++ Nat.toDigits 10 v.minor.natAbs ++ ['.'] ++
      Nat.toDigits 10 v.patch.natAbs) (Nat.toDigits 10 v.major.natAbs) (some (Nat.toDigits 10 v.minor.natAbs))
    (some (Nat.toDigits 10 v.patch.natAbs))
    ⟨[], [], .inl rfl, .inl rfl, by simp [group], toDigits_numeral ht _,
      fun x hx => by simp only [Option.some.injEq] at hx; rw [← hx]; exact toDigits_numeral ht _,
      fun x hx => by simp only [Option.some.injEq] at hx; rw [← hx]; exact toDigits_numeral ht _, by simp⟩
    v.major.natAbs v.minor.natAbs v.patch.natAbs
    ⟨toDigits_value ht _, la⟩ ⟨toDigits_value ht _, lb⟩ ⟨toDigits_value ht _, lc⟩
  refine this.trans ?_
  congr 1
  cases v
  simp only [Version.mk.injEq] at *
  omega

/-- **C34.** Printing works for all numbers with at most 4300 digits (and fails beyond). -/
theorem C34_printable (v : Version) : (∃ s, v.toStr = .ok s) ↔
    v.major.natAbs < 10 ^ maxDigits ∧ v.minor.natAbs < 10 ^ maxDigits ∧ v.patch.natAbs < 10 ^ maxDigits := by
  have key : ∀ n : Int, (∃ s, showInt n = .ok s) ↔ n.natAbs < 10 ^ maxDigits := by
    intro n
    rw [← Nat.length_toDigits_le_iff (by decide) (by decide)]
    constructor
    · rintro ⟨s, hs⟩; exact (showInt_ok n s hs).1
    · intro h
      unfold showInt
      simp only
      rw [if_neg (by omega)]
      exact ⟨_, rfl⟩
  rw [← key, ← key, ← key]
  constructor
  · rintro ⟨s, hs⟩
    obtain ⟨a, b, c, ha, hb, hc, -⟩ := toStr_ok v s hs
    exact ⟨⟨a, ha⟩, ⟨b, hb⟩, ⟨c, hc⟩⟩
  · rintro ⟨⟨a, ha⟩, ⟨b, hb⟩, ⟨c, hc⟩⟩
    unfold Version.toStr
    rw [ha, hb, hc]
    exact ⟨_, rfl⟩

/-- **C34.** A version with a negative number does not survive: its string is read as 0.0.0. -/
theorem C34_negative (ht : Table digit) (v : Version) (s : List Char) (h : v.toStr = .ok s)
    (hneg : v.major < 0 ∨ v.minor < 0 ∨ v.patch < 0) : fromString digit (some s) = .ok .zero := by
  refine (C34_malformed ht s ?_).1
  rintro ⟨a, b, c, hs⟩
  have hm := (match_iff ht s a b c).2 hs
  obtain ⟨p, e, hp, he, hs, ha, hb, hc, hbc⟩ := hs
  -- a minus sign occurs in the string, but nothing in its shape is a minus sign
  have hin : '-' ∈ s := by
    obtain ⟨x, y, z, hx, hy, hz, rfl⟩ := toStr_ok v s h
    have hx := (showInt_ok _ _ hx).2
    have hy := (showInt_ok _ _ hy).2
    have hz := (showInt_ok _ _ hz).2
    rcases hneg with hn | hn | hn
    · rw [if_pos hn] at hx; rw [hx]; simp
    · rw [if_pos hn] at hy; rw [hy]; simp
    · rw [if_pos hn] at hz; rw [hz]; simp
  have hnum : ∀ ds, Numeral digit ds → '-' ∉ ds := by
    intro ds hd hmem
    have := hd.2 _ hmem
    rw [ht.minus] at this; simp at this
  have hgrp : ∀ g : Option (List Char), (∀ x, g = some x → Numeral digit x) → '-' ∉ group g := by
    intro g hg hmem
    cases g with
    | none => simp [group] at hmem
    | some x =>
      simp only [group, List.mem_cons] at hmem
      rcases hmem with hmem | hmem
      · exact absurd hmem (by decide)
      · exact hnum x (hg x rfl) hmem
  rw [hs] at hin
  simp only [List.mem_append] at hin
  rcases hin with hin | hin | hin | hin | hin
  · rcases hp with rfl | rfl | rfl
    · simp at hin
    · exact absurd hin (by decide)
    · exact absurd hin (by decide)
  · exact hnum a ha hin
  · exact hgrp b hb hin
  · exact hgrp c hc hin
  · rcases he with rfl | rfl
    · simp at hin
    · exact absurd hin (by decide)

/-- `v` comes before `w`: the first number that differs is smaller. -/
def Before (v w : Version) : Prop :=
  v.major < w.major ∨ (v.major = w.major ∧ (v.minor < w.minor ∨ (v.minor = w.minor ∧ v.patch < w.patch)))

/-- **C34.** The six comparisons are those of the numbers, most significant first. -/
theorem C34_compare (v w : Version) :
    (v.lt w = true ↔ Before v w) ∧ (v.gt w = true ↔ Before w v) ∧ (v.le w = true ↔ Before v w ∨ v = w) ∧
    (v.ge w = true ↔ Before w v ∨ v = w) ∧ (v.eq w = true ↔ v = w) ∧ (v.ne w = true ↔ v ≠ w) := by
  obtain ⟨a, b, c⟩ := v
  obtain ⟨x, y, z⟩ := w
  have heq : Version.eq ⟨a, b, c⟩ ⟨x, y, z⟩ = true ↔ (⟨a, b, c⟩ : Version) = ⟨x, y, z⟩ := by
    simp [Version.eq, tuples]
  refine ⟨?_, ?_, ?_, ?_, heq, ?_⟩
  · simp only [Version.lt, tuples, tupleCompare, Before]
    grind
  · simp only [Version.gt, tuples, tupleCompare, Before]
    grind
  · simp only [Version.le, tuples, tupleCompare, Before, Version.mk.injEq]
    grind
  · simp only [Version.ge, tuples, tupleCompare, Before, Version.mk.injEq]
    grind
  · rw [Version.ne, Bool.not_eq_true', ← Bool.not_eq_true, heq]

/-- **C34.** The comparison is a total order: exactly one of less, equal, greater; and it is transitive. -/
theorem C34_total_order (u v w : Version) :
    (v.lt w = true ∨ v.eq w = true ∨ v.gt w = true) ∧
    ¬ (v.lt w = true ∧ v.eq w = true) ∧ ¬ (v.lt w = true ∧ v.gt w = true) ∧ ¬ (v.eq w = true ∧ v.gt w = true) ∧
    (u.lt v = true → v.lt w = true → u.lt w = true) ∧ (v.le w = true → w.le v = true → v.eq w = true) := by
  obtain ⟨h1, h2, h3, h4, h5, h6⟩ := C34_compare v w
  obtain ⟨k1, -⟩ := C34_compare u v
  obtain ⟨l1, -⟩ := C34_compare u w
  obtain ⟨-, -, g3, -⟩ := C34_compare w v
  rw [h1, h2, h3, h5, k1, l1, g3]
  obtain ⟨a, b, c⟩ := v
  obtain ⟨x, y, z⟩ := w
  obtain ⟨p, q, r⟩ := u
  simp only [Before, Version.mk.injEq]
  refine ⟨?_, ?_, ?_, ?_, ?_, ?_⟩ <;> omega

/-! ### Non-vacuity -/

example : fromString ascii (some "v1.10.3".toList) = .ok ⟨1, 10, 3⟩ := by decide +kernel
example : fromString ascii (some "12\n".toList) = .ok ⟨12, 0, 0⟩ := by decide +kernel
example : fromString ascii (some "1.2.3.4".toList) = .ok .zero := by decide +kernel
example : fromString ascii (some "1.".toList) = .ok .zero := by decide +kernel
example : Version.lt ⟨1, 9, 7⟩ ⟨1, 10, 0⟩ = true := by decide +kernel
example : Version.toStr ⟨8, 12, 0⟩ = .ok "8.12.0".toList := by decide +kernel
example : Shape ascii "v1.10".toList "1".toList (some "10".toList) none :=
  (match_iff table_ascii _ _ _ _).1 (by decide +kernel)

end Verif.C34
