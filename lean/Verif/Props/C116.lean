import Verif.Model.Archive
import Verif.Props.C86
import Mathlib.Data.List.Dedup
import Mathlib.Data.List.Forall2

/-!
# C116 Uploaded archives
-/

namespace Verif.C116
open Verif.Files Verif.Archive
open Classical

/-! ## Specification -/

/-- A name with something before a dot and, after the dot, the given ending in letters of any case. -/
def Ends (n : Text) (ending : String) : Prop :=
  ∃ stem e, stem ≠ [] ∧ n = stem ++ '.' :: e ∧ e.map Char.toLower = ending.toList

/-- The same with the ending exactly as given. -/
def EndsExactly (n : Text) (ending : String) : Prop := ∃ stem, stem ≠ [] ∧ n = stem ++ '.' :: ending.toList

/-- The last part of a path. -/
def Last (t n : Text) : Prop := (∃ ps, parts t = ps ++ [n]) ∨ parts t = [] ∧ n = []

/-- A file for tables. -/
def Csv (t : Text) : Prop := ∃ n, Last t n ∧ Ends n "csv"

/-- A file for models. -/
def Yaml (t : Text) : Prop := ∃ n, Last t n ∧ (Ends n "yml" ∨ Ends n "yaml")

/-- Neither a folder, nor one of the files that systems hide in archives, nor something that is a folder where the
process runs. -/
structure Visible (isDir : FPath → Bool) (e : Entry) : Prop where
  file : ¬ ∃ t, e.name = t ++ ['/']
  hidden : ¬ ".DS_Store".toList <:+: (FPath.ofText e.name).str
  mac : ¬ "__MACOSX".toList <:+: (FPath.ofText e.name).str
  folder : isDir (FPath.ofText e.name) = false

/-- What is taken from an archive. -/
def Taken (isDir : FPath → Bool) (e : Entry) : Prop := Visible isDir e ∧ (Csv e.name ∨ Yaml e.name)

/-- What is reported as not usable. -/
def Reported (isDir : FPath → Bool) (e : Entry) : Prop := Visible isDir e ∧ ¬ (Csv e.name ∨ Yaml e.name)

/-- A valid file for an entry. -/
structure IsValid (e : Entry) (v : Valid) : Prop where
  path : v.path = FPath.ofText e.name
  name : Last e.name v.name
  text : e.body = .bytes v.text
  csv : Csv e.name → v.type = .csv
  yaml : Yaml e.name → v.type = .yaml

/-- An invalid file for an entry. -/
structure IsInvalid (e : Entry) (i : Invalid) : Prop where
  path : i.path = FPath.ofText e.name
  name : Last e.name i.name

/-- A main file: a yaml file with one of the main words. -/
structure Main (v : Valid) : Prop where
  yaml : Ends v.path.name "yml" ∨ Ends v.path.name "yaml"
  word : ∃ t, v.text = some t ∧ ∃ w ∈ ["INSTALLATION", "TIME_SERIES", "FACILITY_INPUTS", "FUEL_TYPES"], w.toList <:+: t

/-! ## Names and endings -/

theorem last_iff (t n : Text) : Last t n ↔ name (parts t) = n := by
  unfold Last name
  constructor
  · rintro (⟨ps, h⟩ | ⟨h, rfl⟩)
    · rw [h]; simp
    · rw [h]; rfl
  · intro h
    rcases List.eq_nil_or_concat (parts t) with hp | ⟨ps, a, hp⟩
    · rw [hp] at h; exact .inr ⟨hp, h.symm⟩
    · left
      rw [hp] at h
      simp only [List.concat_eq_append, List.getLast?_append, List.getLast?_singleton, Option.some_or,
        Option.getD_some] at h
      exact ⟨ps, by rw [hp, h]; simp⟩

theorem suffix_eq (t : Text) : suffix t = suffixOf (name (parts t)) := rfl

theorem takeWhile_stop {e s : Text} (he : '.' ∉ e) :
    (e ++ '.' :: s).takeWhile (· ≠ '.') = e := by
  induction e with
  | nil => simp
  | cons c e ih =>
    simp only [List.mem_cons, not_or] at he
    rw [List.cons_append, List.takeWhile_cons, if_pos (by simpa using Ne.symm he.1), ih he.2]

theorem ends_by (f : Char → Char) (hf : f '.' = '.') (n : Text) (ending : String) (hd : '.' ∉ ending.toList)
    (hne : ending.toList ≠ []) : (suffixOf n).map f = '.' :: ending.toList ↔
      ∃ stem e, stem ≠ [] ∧ n = stem ++ '.' :: e ∧ e.map f = ending.toList := by
  constructor
  · intro h
    unfold suffixOf at h
    dsimp only at h
    by_cases hc : '.' ∈ n ∧ (n.reverse.takeWhile (· ≠ '.')).reverse ≠ [] ∧
        (n.reverse.takeWhile (· ≠ '.')).reverse.length + 1 < n.length
    · rw [if_pos hc, List.map_cons] at h
      obtain ⟨h1, h2, h3⟩ := hc
      obtain ⟨a, b, hab, hnb⟩ : ∃ a b, n = a ++ '.' :: b ∧ '.' ∉ b := by
        have := List.append_of_mem (List.mem_reverse.mpr h1)
        clear h h2 h3
        induction n with
        | nil => cases h1
        | cons c n ih =>
          by_cases hn : '.' ∈ n
          · obtain ⟨a, b, hab, hnb⟩ := ih hn (List.append_of_mem (List.mem_reverse.mpr hn))
            exact ⟨c :: a, b, by rw [hab]; rfl, hnb⟩
          · rcases List.mem_cons.mp h1 with rfl | h1
            · exact ⟨[], n, rfl, hn⟩
            · exact absurd h1 hn
      have hr : (n.reverse.takeWhile (· ≠ '.')).reverse = b := by
        rw [hab]
        simp only [List.reverse_append, List.reverse_cons, List.append_assoc, List.singleton_append]
        rw [takeWhile_stop (by simpa using hnb)]
        simp
      rw [hr] at h h3
      refine ⟨a, b, ?_, hab, (List.cons.inj h).2⟩
      rintro rfl
      rw [hab] at h3
      simp at h3
    · rw [if_neg hc] at h; cases h
  · rintro ⟨stem, e, hs, rfl, he⟩
    have hnd : '.' ∉ e := by
      intro hm
      have := List.mem_map_of_mem (f := f) hm
      rw [he, hf] at this
      exact hd this
    have hr : ((stem ++ '.' :: e).reverse.takeWhile (· ≠ '.')).reverse = e := by
      simp only [List.reverse_append, List.reverse_cons, List.append_assoc, List.singleton_append]
      rw [takeWhile_stop (by simpa using hnd)]
      simp
    unfold suffixOf
    dsimp only
    rw [hr, if_pos, List.map_cons, he, hf]
    · refine ⟨by simp, ?_, ?_⟩
      · rintro rfl; exact hne he.symm
      · have := List.length_pos_iff.mpr hs
        simp; omega

theorem ends_iff (n : Text) (ending : String) (hd : '.' ∉ ending.toList) (hne : ending.toList ≠ []) :
    (suffixOf n).map Char.toLower = '.' :: ending.toList ↔ Ends n ending := ends_by _ (by decide) n ending hd hne

theorem exact_iff (n : Text) (ending : String) (hd : '.' ∉ ending.toList) (hne : ending.toList ≠ []) :
    suffixOf n = '.' :: ending.toList ↔ EndsExactly n ending := by
  have h := ends_by id rfl n ending hd hne
  rw [List.map_id] at h
  rw [h]
  constructor
  · rintro ⟨stem, e, h1, h2, h3⟩
    rw [List.map_id] at h3
    exact ⟨stem, h1, h3 ▸ h2⟩
  · rintro ⟨stem, h1, h2⟩; exact ⟨stem, _, h1, h2, List.map_id _⟩

theorem ends_csv (n : Text) : (suffixOf n).map Char.toLower = ['.','c','s','v'] ↔ Ends n "csv" :=
  ends_iff n "csv" (by decide) (by decide)

theorem ends_yml (n : Text) : (suffixOf n).map Char.toLower = ['.','y','m','l'] ↔ Ends n "yml" :=
  ends_iff n "yml" (by decide) (by decide)

theorem ends_yaml (n : Text) : (suffixOf n).map Char.toLower = ['.','y','a','m','l'] ↔ Ends n "yaml" :=
  ends_iff n "yaml" (by decide) (by decide)

theorem isCsv_iff (t : Text) : isCsv t = true ↔ Csv t := by
  unfold isCsv lower Csv
  rw [decide_eq_true_eq, suffix_eq, ends_csv]
  constructor
  · intro h; exact ⟨_, (last_iff _ _).mpr rfl, h⟩
  · rintro ⟨n, hn, h⟩; rw [(last_iff _ _).mp hn]; exact h

theorem isYaml_iff (t : Text) : isYaml t = true ↔ Yaml t := by
  unfold isYaml lower Yaml
  rw [decide_eq_true_eq, suffix_eq]
  simp only [List.mem_cons, List.not_mem_nil, or_false]
  rw [ends_yml, ends_yaml]
  constructor
  · intro h; exact ⟨_, (last_iff _ _).mpr rfl, h⟩
  · rintro ⟨n, hn, h⟩; rw [(last_iff _ _).mp hn]; exact h

theorem not_both {t : Text} (hc : Csv t) : ¬ Yaml t := by
  intro hy
  have h1 := (isCsv_iff t).mpr hc
  have h2 := (isYaml_iff t).mpr hy
  unfold isCsv at h1
  unfold isYaml at h2
  rw [decide_eq_true_eq] at h1 h2
  rw [h1] at h2
  revert h2
  decide

theorem visible_iff (isDir : FPath → Bool) (e : Entry) :
    (ignored isDir (FPath.ofText e.name) || e.isFolder) = false ↔ Visible isDir e := by
  unfold ignored keywords Entry.isFolder
  simp only [List.any_cons, List.any_nil, Bool.or_false, Bool.or_eq_false_iff, decide_eq_false_iff_not]
  have hf : e.name.getLast? = some '/' ↔ ∃ t, e.name = t ++ ['/'] := by
    rw [List.getLast?_eq_some_iff]
  rw [hf]
  constructor
  · rintro ⟨⟨h1, h2, h3⟩, h4⟩; exact ⟨h4, h2, h3, h1⟩
  · rintro ⟨h4, h2, h3, h1⟩; exact ⟨⟨h1, h2, h3⟩, h4⟩

theorem type_csv {t : Text} (h : Csv t) : getType t = .ok .csv := by
  unfold getType; rw [if_pos ((isCsv_iff t).mpr h)]

theorem type_yaml {t : Text} (h : Yaml t) : getType t = .ok .yaml := by
  unfold getType
  rw [if_neg (fun hc => not_both ((isCsv_iff t).mp hc) h), if_pos ((isYaml_iff t).mpr h)]

/-! ## Unpacking -/

/-- What the loop does with one entry. -/
theorem entry_cases (isDir : FPath → Bool) (acc : List Valid × List Invalid) (e : Entry) :
    (¬ Visible isDir e ∧ unpackEntry isDir acc e = .ok acc) ∨
    (Reported isDir e ∧ ∃ i, IsInvalid e i ∧ unpackEntry isDir acc e = .ok (acc.1, acc.2 ++ [i])) ∨
    (Taken isDir e ∧ ((∃ v, IsValid e v ∧ unpackEntry isDir acc e = .ok (acc.1 ++ [v], acc.2)) ∨
      (e.body = .damaged ∧ unpackEntry isDir acc e = .error .badZip) ∨
      (e.body = .refused ∧ unpackEntry isDir acc e = .error .reading))) := by
  unfold unpackEntry
  dsimp only
  by_cases hv : Visible isDir e
  · rw [(visible_iff isDir e).mpr hv, if_neg (by simp)]
    right
    have hl : Last e.name (FPath.ofText e.name).name := (last_iff _ _).mpr rfl
    by_cases ht : Csv e.name ∨ Yaml e.name
    · right
      have : (isCsv e.name || isYaml e.name) = true := by
        rw [Bool.or_eq_true, isCsv_iff, isYaml_iff]; exact ht
      rw [if_pos this]
      refine ⟨⟨hv, ht⟩, ?_⟩
      cases hb : e.body with
      | damaged => exact .inr (.inl ⟨rfl, rfl⟩)
      | refused => exact .inr (.inr ⟨rfl, rfl⟩)
      | bytes text =>
        left
        rcases ht with ht | ht
        · rw [type_csv ht]
          exact ⟨_, ⟨rfl, hl, hb, fun _ => rfl, fun h => absurd h (not_both ht)⟩, rfl⟩
        · rw [type_yaml ht]
          exact ⟨_, ⟨rfl, hl, hb, fun h => absurd ht (not_both h), fun _ => rfl⟩, rfl⟩
    · left
      have : ¬ (isCsv e.name || isYaml e.name) = true := by
        rw [Bool.or_eq_true, isCsv_iff, isYaml_iff]; exact ht
      rw [if_neg this]
      exact ⟨⟨hv, ht⟩, _, ⟨rfl, hl⟩, rfl⟩
  · have : (ignored isDir (FPath.ofText e.name) || e.isFolder) = true := by
      rw [← Bool.not_eq_false, visible_iff]; exact hv
    rw [if_pos this]
    exact .inl ⟨hv, rfl⟩

/-- The entries that are taken, and those that are reported. -/
noncomputable def taken (isDir : FPath → Bool) (es : List Entry) : List Entry := es.filter fun e => decide (Taken isDir e)
noncomputable def reported (isDir : FPath → Bool) (es : List Entry) : List Entry :=
  es.filter fun e => decide (Reported isDir e)

/-- An entry that can be read. -/
def Readable (e : Entry) : Prop := ∃ t, e.body = .bytes t

theorem entries_ok (isDir : FPath → Bool) : ∀ (es : List Entry) (acc : List Valid × List Invalid),
    (∀ e ∈ taken isDir es, Readable e) →
    ∃ v i, unpackEntries isDir acc es = .ok (acc.1 ++ v, acc.2 ++ i) ∧ List.Forall₂ IsValid (taken isDir es) v ∧
      List.Forall₂ IsInvalid (reported isDir es) i := by
  intro es
  induction es with
  | nil => intro acc _; exact ⟨[], [], by simp [unpackEntries], .nil, .nil⟩
  | cons e es ih =>
    intro acc hr
    unfold unpackEntries
    rcases entry_cases isDir acc e with ⟨hv, h⟩ | ⟨hp, i, hi, h⟩ | ⟨ht, h⟩
    · have h1 : taken isDir (e :: es) = taken isDir es :=
        List.filter_cons_of_neg (by rw [decide_eq_true_eq]; exact fun hh => hv hh.1)
      have h2 : reported isDir (e :: es) = reported isDir es :=
        List.filter_cons_of_neg (by rw [decide_eq_true_eq]; exact fun hh => hv hh.1)
      rw [h]
      obtain ⟨v, i, hu, hv', hi'⟩ := ih acc (by rw [← h1]; exact hr)
      exact ⟨v, i, hu, by rw [h1]; exact hv', by rw [h2]; exact hi'⟩
    · have h1 : taken isDir (e :: es) = taken isDir es :=
        List.filter_cons_of_neg (by rw [decide_eq_true_eq]; exact fun hh => hp.2 hh.2)
      have h2 : reported isDir (e :: es) = e :: reported isDir es := List.filter_cons_of_pos (by simpa using hp)
      rw [h]
      obtain ⟨v, is, hu, hv', hi'⟩ := ih (acc.1, acc.2 ++ [i]) (by rw [← h1]; exact hr)
      refine ⟨v, i :: is, ?_, by rw [h1]; exact hv', by rw [h2]; exact .cons hi hi'⟩
      simp only [hu, List.append_assoc, List.singleton_append]
    · have h1 : taken isDir (e :: es) = e :: taken isDir es := List.filter_cons_of_pos (by simpa using ht)
      have h2 : reported isDir (e :: es) = reported isDir es :=
        List.filter_cons_of_neg (by simpa using fun hh : Reported isDir e => hh.2 ht.2)
      obtain ⟨t, hb⟩ := hr e (by rw [h1]; simp)
      rcases h with ⟨v, hv, h⟩ | ⟨hd, -⟩ | ⟨hd, -⟩
      · rw [h]
        obtain ⟨vs, is, hu, hv', hi'⟩ := ih (acc.1 ++ [v], acc.2) (fun e' he' => hr e' (by rw [h1]; simp [he']))
        refine ⟨v :: vs, is, ?_, by rw [h1]; exact .cons hv hv', by rw [h2]; exact hi'⟩
        simp only [hu, List.append_assoc, List.singleton_append]
      · rw [hb] at hd; cases hd
      · rw [hb] at hd; cases hd

theorem entries_error (isDir : FPath → Bool) : ∀ (es : List Entry) (acc : List Valid × List Invalid),
    ¬ (∀ e ∈ taken isDir es, Readable e) →
    ∃ l e r, taken isDir es = l ++ e :: r ∧ (∀ x ∈ l, Readable x) ∧
      ((e.body = .damaged ∧ unpackEntries isDir acc es = .error .badZip) ∨
       (e.body = .refused ∧ unpackEntries isDir acc es = .error .reading)) := by
  intro es
  induction es with
  | nil => intro acc h; exact absurd (by simp [taken]) h
  | cons e es ih =>
    intro acc hr
    unfold unpackEntries
    rcases entry_cases isDir acc e with ⟨hv, h⟩ | ⟨hp, i, hi, h⟩ | ⟨ht, h⟩
    · have h1 : taken isDir (e :: es) = taken isDir es :=
        List.filter_cons_of_neg (by rw [decide_eq_true_eq]; exact fun hh => hv hh.1)
      rw [h, h1]
      exact ih acc (by rw [← h1]; exact hr)
    · have h1 : taken isDir (e :: es) = taken isDir es :=
        List.filter_cons_of_neg (by rw [decide_eq_true_eq]; exact fun hh => hp.2 hh.2)
      rw [h, h1]
      exact ih _ (by rw [← h1]; exact hr)
    · have h1 : taken isDir (e :: es) = e :: taken isDir es := List.filter_cons_of_pos (by simpa using ht)
      rcases h with ⟨v, hv, h⟩ | ⟨hd, h⟩ | ⟨hd, h⟩
      · rw [h, h1]
        have : ¬ ∀ x ∈ taken isDir es, Readable x := by
          intro hh
          apply hr
          rw [h1]
          intro x hx
          rcases List.mem_cons.mp hx with rfl | hx
          · exact ⟨_, hv.text⟩
          · exact hh x hx
        obtain ⟨l, e', r, h2, h3, h4⟩ := ih (acc.1 ++ [v], acc.2) this
        refine ⟨e :: l, e', r, by rw [h2]; rfl, ?_, h4⟩
        intro x hx
        rcases List.mem_cons.mp hx with rfl | hx
        · exact ⟨_, hv.text⟩
        · exact h3 x hx
      · rw [h, h1]
        exact ⟨[], e, _, rfl, by simp, .inl ⟨hd, rfl⟩⟩
      · rw [h, h1]
        exact ⟨[], e, _, rfl, by simp, .inr ⟨hd, rfl⟩⟩

theorem repeated_iff (l : List FPath) : repeated l = false ↔ l.Nodup := by
  unfold repeated
  rw [decide_eq_false_iff_not, not_not]
  have key : ∀ (n : ℕ) (l : List FPath), l.length ≤ n →
      l.eraseDups.length ≤ l.length ∧ (l.length = l.eraseDups.length ↔ l.Nodup) := by
    intro n
    induction n with
    | zero => intro l h; cases l <;> simp_all
    | succ n ih =>
      intro l h
      cases l with
      | nil => simp
      | cons a l =>
        rw [List.eraseDups_cons]
        have hf := List.length_filter_le (fun b => !b == a) l
        have hlen : l.length ≤ n := by simpa using h
        obtain ⟨h1, h2⟩ := ih (l.filter fun b => !b == a) (by omega)
        refine ⟨by simp only [List.length_cons]; omega, ?_⟩
        rw [List.nodup_cons]
        simp only [List.length_cons]
        constructor
        · intro he
          have h3 : (l.filter fun b => !b == a).length = l.length := by omega
          have h4 := List.filter_sublist.eq_of_length h3
          rw [h4] at h2
          refine ⟨fun hm => ?_, h2.mp (by rw [h4] at he; omega)⟩
          rw [← h4] at hm
          simp at hm
        · rintro ⟨hm, hn⟩
          have h4 : (l.filter fun b => !b == a) = l := by
            rw [List.filter_eq_self]
            intro b hb
            simp only [Bool.not_eq_true', beq_eq_false_iff_ne]
            rintro rfl
            exact hm hb
          rw [h4] at h2 ⊢
          rw [← h2.mpr hn]
  exact (key l.length l (le_refl _)).2

theorem paths_eq {es : List Entry} {v : List Valid} (h : List.Forall₂ IsValid es v) :
    v.map Valid.path = es.map fun e => FPath.ofText e.name := by
  induction h with
  | nil => rfl
  | cons h1 _ ih => rw [List.map_cons, List.map_cons, ih, h1.path]

/-- **C116.** An archive is accepted exactly if every csv and yaml file in it can be read and no two of them have the same
path. Then these are the valid files and the other visible files the invalid ones, each once and in the order of the
archive, with path, name, content and type. -/
theorem C116_archive (isDir : FPath → Bool) (es : List Entry) :
    ((∃ r, unpack isDir (some es) = .ok r) ↔
      (∀ e ∈ taken isDir es, Readable e) ∧ ((taken isDir es).map fun e => FPath.ofText e.name).Nodup) ∧
    ∀ v i, unpack isDir (some es) = .ok (v, i) →
      List.Forall₂ IsValid (taken isDir es) v ∧ List.Forall₂ IsInvalid (reported isDir es) i ∧
      (v.map Valid.path).Nodup := by
  have main : ∀ v i, unpack isDir (some es) = .ok (v, i) → (∀ e ∈ taken isDir es, Readable e) ∧
      List.Forall₂ IsValid (taken isDir es) v ∧ List.Forall₂ IsInvalid (reported isDir es) i ∧
      (v.map Valid.path).Nodup := by
    intro v i h
    by_cases hr : ∀ e ∈ taken isDir es, Readable e
    · obtain ⟨v', i', hu, hv, hi⟩ := entries_ok isDir es ([], []) hr
      unfold unpack at h
      dsimp only at h
      rw [hu] at h
      simp only [List.nil_append] at h
      cases hp : repeated (v'.map Valid.path) with
      | true => rw [hp] at h; cases h
      | false =>
        rw [hp] at h
        cases Except.ok.inj h
        exact ⟨hr, hv, hi, (repeated_iff _).mp hp⟩
    · obtain ⟨l, e, r, -, -, hh⟩ := entries_error isDir es ([], []) hr
      unfold unpack at h
      dsimp only at h
      rcases hh with ⟨-, hu⟩ | ⟨-, hu⟩ <;> rw [hu] at h <;> cases h
  refine ⟨⟨?_, ?_⟩, fun v i h => (main v i h).2⟩
  · rintro ⟨⟨v, i⟩, h⟩
    obtain ⟨hr, hv, -, hn⟩ := main v i h
    rw [paths_eq hv] at hn
    exact ⟨hr, hn⟩
  · rintro ⟨hr, hn⟩
    obtain ⟨v, i, hu, hv, hi⟩ := entries_ok isDir es ([], []) hr
    rw [← paths_eq hv] at hn
    refine ⟨(v, i), ?_⟩
    unfold unpack
    dsimp only
    rw [hu]
    simp only [List.nil_append]
    rw [(repeated_iff _).mpr hn]
    rfl

/-- **C116.** An archive that is refused: it is no archive, or the first csv or yaml file that cannot be read decides the error; if all can be
read, two of them have the same path. What else is in the archive is never read. -/
theorem C116_refused (isDir : FPath → Bool) (archive : Option (List Entry)) (x : AErr)
    (h : unpack isDir archive = .error x) : (archive = none ∧ x = .badZip) ∨ ∃ es, archive = some es ∧
    ((∃ l e r, taken isDir es = l ++ e :: r ∧ (∀ y ∈ l, Readable y) ∧
      (e.body = .damaged ∧ x = .badZip ∨ e.body = .refused ∧ x = .reading)) ∨
    (x = .duplicated ∧ (∀ e ∈ taken isDir es, Readable e) ∧
      ¬ ((taken isDir es).map fun e => FPath.ofText e.name).Nodup)) := by
  cases archive with
  | none => exact .inl ⟨rfl, (Except.error.inj h).symm⟩
  | some es =>
  refine .inr ⟨es, rfl, ?_⟩
  by_cases hr : ∀ e ∈ taken isDir es, Readable e
  · right
    obtain ⟨v, i, hu, hv, hi⟩ := entries_ok isDir es ([], []) hr
    unfold unpack at h
    dsimp only at h
    rw [hu] at h
    simp only [List.nil_append] at h
    cases hp : repeated (v.map Valid.path) with
    | false => rw [hp] at h; cases h
    | true =>
      rw [hp] at h
      refine ⟨(Except.error.inj h).symm, hr, ?_⟩
      rw [← paths_eq hv, ← repeated_iff, hp]
      decide
  · left
    obtain ⟨l, e, r, h1, h2, hh⟩ := entries_error isDir es ([], []) hr
    refine ⟨l, e, r, h1, h2, ?_⟩
    unfold unpack at h
    dsimp only at h
    rcases hh with ⟨hb, hu⟩ | ⟨hb, hu⟩
    · rw [hu] at h; exact .inl ⟨hb, (Except.error.inj h).symm⟩
    · rw [hu] at h; exact .inr ⟨hb, (Except.error.inj h).symm⟩

/-! ## Uploads -/

/-- An upload whose name ends exactly so. -/
def Up (u : Upload) (ending : String) : Prop := ∃ n, Last u.name n ∧ EndsExactly n ending

/-- An upload that is taken. -/
def UpTaken (u : Upload) : Prop := Up u "csv" ∨ Up u "yaml" ∨ Up u "yml"

/-- A valid file for an upload. -/
structure UpValid (u : Upload) (v : Valid) : Prop where
  path : v.path = FPath.ofText u.name
  name : v.name = u.name
  text : v.text = u.text
  csv : Up u "csv" → v.type = .csv
  yaml : Up u "yaml" ∨ Up u "yml" → v.type = .yaml

/-- An invalid file for an upload. -/
structure UpInvalid (u : Upload) (i : Invalid) : Prop where
  path : i.path = FPath.ofText u.name
  name : i.name = u.name

theorem up_iff (u : Upload) (ending : String) (hd : '.' ∉ ending.toList) (hne : ending.toList ≠ []) :
    suffix u.name = '.' :: ending.toList ↔ Up u ending := by
  unfold Up
  rw [suffix_eq, exact_iff _ _ hd hne]
  constructor
  · intro h; exact ⟨_, (last_iff _ _).mpr rfl, h⟩
  · rintro ⟨n, hn, h⟩; rw [(last_iff _ _).mp hn]; exact h

theorem up_taken (u : Upload) : suffix u.name ∈ [".csv".toList, ".yaml".toList, ".yml".toList] ↔ UpTaken u := by
  simp only [List.mem_cons, List.not_mem_nil, or_false]
  exact or_congr (up_iff u "csv" (by decide) (by decide))
    (or_congr (up_iff u "yaml" (by decide) (by decide)) (up_iff u "yml" (by decide) (by decide)))

theorem upload_eq (isDir : FPath → Bool) (n : ℕ) (acc : List Valid × List Invalid) (u : Upload) :
    (∃ x, sortUpload isDir n acc u = .error x ∧ (x = .index ∨ x = .combination)) ∨
    (sortFile n u.name = .ok .zip ∧ sortUpload isDir n acc u = unpack isDir u.archive) ∨
    (sortFile n u.name = .ok .valid ∧ ∃ v, UpValid u v ∧ sortUpload isDir n acc u = .ok (acc.1 ++ [v], acc.2)) ∨
    (sortFile n u.name = .ok .invalid ∧ ∃ i, UpInvalid u i ∧ sortUpload isDir n acc u = .ok (acc.1, acc.2 ++ [i])) := by
  unfold sortUpload sortFile
  cases ha : allowed u.name with
  | error x => exact .inl ⟨_, rfl, .inl rfl⟩
  | ok b =>
    cases b with
    | false => exact .inr (.inr (.inr ⟨rfl, _, ⟨rfl, rfl⟩, rfl⟩))
    | true =>
      dsimp only
      by_cases hz : isZip u.name = true
      · rw [if_pos hz, if_pos hz]
        by_cases hn : 1 < n
        · rw [if_pos hn]; exact .inl ⟨_, rfl, .inr rfl⟩
        · rw [if_neg hn, if_neg hn]; exact .inr (.inl ⟨rfl, rfl⟩)
      · rw [if_neg hz, if_neg hz]
        by_cases hc : (isCsv u.name || isYaml u.name) = true
        · rw [if_pos hc, if_pos hc]
          right; right; left
          refine ⟨rfl, ?_⟩
          have hcsv : Up u "csv" → Csv u.name := by
            rintro ⟨m, hm, stem, h1, h2⟩
            exact ⟨m, hm, stem, _, h1, h2, by decide⟩
          have hyaml : Up u "yaml" ∨ Up u "yml" → Yaml u.name := by
            rintro (⟨m, hm, stem, h1, h2⟩ | ⟨m, hm, stem, h1, h2⟩)
            · exact ⟨m, hm, .inr ⟨stem, _, h1, h2, by decide⟩⟩
            · exact ⟨m, hm, .inl ⟨stem, _, h1, h2, by decide⟩⟩
          rw [Bool.or_eq_true, isCsv_iff, isYaml_iff] at hc
          rcases hc with hc | hc
          · rw [type_csv hc]
            exact ⟨_, ⟨rfl, rfl, rfl, fun _ => rfl, fun h => absurd (hyaml h) (not_both hc)⟩, rfl⟩
          · rw [type_yaml hc]
            exact ⟨_, ⟨rfl, rfl, rfl, fun h => absurd hc (not_both (hcsv h)), fun _ => rfl⟩, rfl⟩
        · rw [if_neg hc, if_neg hc]
          exact .inr (.inr (.inr ⟨rfl, _, ⟨rfl, rfl⟩, rfl⟩))

theorem uploads_ok (isDir : FPath → Bool) (n : ℕ) (hn : 1 < n) : ∀ (us : List Upload) (acc : List Valid × List Invalid)
    (r : List Valid × List Invalid), sortUploads isDir n acc us = .ok r →
    ∃ v i, r = (acc.1 ++ v, acc.2 ++ i) ∧ (∀ u ∈ us, ¬ Up u "zip") ∧
      List.Forall₂ UpValid (us.filter fun u => decide (UpTaken u)) v ∧
      List.Forall₂ UpInvalid (us.filter fun u => decide (¬ UpTaken u)) i := by
  intro us
  induction us with
  | nil =>
    intro acc r h
    exact ⟨[], [], by rw [← Except.ok.inj h]; simp, by simp, .nil, .nil⟩
  | cons u us ih =>
    intro acc r h
    unfold sortUploads at h
    rcases upload_eq isDir n acc u with ⟨x, hx, -⟩ | ⟨hs, -⟩ | ⟨hs, v, hv, hx⟩ | ⟨hs, i, hi, hx⟩
    · rw [hx] at h; cases h
    · have := (C86.sort_ok hs).2.2 rfl; omega
    · rw [hx] at h
      obtain ⟨vs, is, hr, hz, h1, h2⟩ := ih _ r h
      have ht : UpTaken u := (up_taken u).mp ((C86.sort_ok hs).1.mp rfl)
      refine ⟨v :: vs, is, by rw [hr]; simp, ?_, ?_, ?_⟩
      · intro u' hu'
        rcases List.mem_cons.mp hu' with rfl | hu'
        · intro hzip
          have := (C86.sort_ok hs).2.1.mpr ((up_iff _ "zip" (by decide) (by decide)).mpr hzip)
          cases this
        · exact hz u' hu'
      · rw [List.filter_cons_of_pos (by simpa using ht)]; exact .cons hv h1
      · rw [List.filter_cons_of_neg (by simpa using ht)]; exact h2
    · rw [hx] at h
      obtain ⟨vs, is, hr, hz, h1, h2⟩ := ih _ r h
      have ht : ¬ UpTaken u := fun ht => by
        have := (C86.sort_ok hs).1.mpr ((up_taken u).mpr ht)
        cases this
      refine ⟨vs, i :: is, by rw [hr]; simp, ?_, ?_, ?_⟩
      · intro u' hu'
        rcases List.mem_cons.mp hu' with rfl | hu'
        · intro hzip
          have := (C86.sort_ok hs).2.1.mpr ((up_iff _ "zip" (by decide) (by decide)).mpr hzip)
          cases this
        · exact hz u' hu'
      · rw [List.filter_cons_of_neg (by simpa using ht)]; exact h1
      · rw [List.filter_cons_of_pos (by simpa using ht)]; exact .cons hi h2

/-- **C116.** Uploads that are accepted are one archive, with what is in it, or files none of which is an archive, each
of which is valid or invalid, once, in order and with its own content. -/
theorem C116_uploads (isDir : FPath → Bool) (us : List Upload) (v : List Valid) (i : List Invalid)
    (h : validate isDir us = .ok (v, i)) :
    (∃ u, us = [u] ∧ Up u "zip" ∧ unpack isDir u.archive = .ok (v, i)) ∨
    ((∀ u ∈ us, ¬ Up u "zip") ∧ List.Forall₂ UpValid (us.filter fun u => decide (UpTaken u)) v ∧
      List.Forall₂ UpInvalid (us.filter fun u => decide (¬ UpTaken u)) i) := by
  unfold validate at h
  match us, h with
  | [], h =>
    have := Except.ok.inj h
    cases this
    exact .inr ⟨by simp, .nil, .nil⟩
  | [u], h =>
    unfold sortUploads at h
    rcases upload_eq isDir [u].length ([], []) u with ⟨x, hx, -⟩ | ⟨hs, hx⟩ | ⟨hs, w, hw, hx⟩ | ⟨hs, j, hj, hx⟩
    · rw [hx] at h; cases h
    · rw [hx] at h
      left
      refine ⟨u, rfl, (up_iff _ "zip" (by decide) (by decide)).mp ((C86.sort_ok hs).2.1.mp rfl), ?_⟩
      cases hu : unpack isDir u.archive with
      | error x => rw [hu] at h; cases h
      | ok r => rw [hu] at h; exact h
    · rw [hx] at h
      right
      have h := Except.ok.inj h
      cases h
      have ht : UpTaken u := (up_taken u).mp ((C86.sort_ok hs).1.mp rfl)
      refine ⟨?_, ?_, ?_⟩
      · intro u' hu' hzip
        rw [List.mem_singleton.mp hu'] at hzip
        have := (C86.sort_ok hs).2.1.mpr ((up_iff _ "zip" (by decide) (by decide)).mpr hzip)
        cases this
      · rw [List.filter_cons_of_pos (by simpa using ht)]; exact .cons hw .nil
      · rw [List.filter_cons_of_neg (by simpa using ht)]; exact .nil
    · rw [hx] at h
      right
      have h := Except.ok.inj h
      cases h
      have ht : ¬ UpTaken u := fun ht => by
        have := (C86.sort_ok hs).1.mpr ((up_taken u).mpr ht)
        cases this
      refine ⟨?_, ?_, ?_⟩
      · intro u' hu' hzip
        rw [List.mem_singleton.mp hu'] at hzip
        have := (C86.sort_ok hs).2.1.mpr ((up_iff _ "zip" (by decide) (by decide)).mpr hzip)
        cases this
      · rw [List.filter_cons_of_neg (by simpa using ht)]; exact .nil
      · rw [List.filter_cons_of_pos (by simpa using ht)]; exact .cons hj .nil
  | u :: u' :: us, h =>
    obtain ⟨v', i', hr, hz, h1, h2⟩ := uploads_ok isDir _ (by simp) _ _ _ h
    cases hr
    exact .inr ⟨hz, h1, h2⟩

/-! ## The main file -/

theorem yaml_path (p : FPath) : p.isYaml = true ↔ Ends p.name "yml" ∨ Ends p.name "yaml" := by
  unfold FPath.isYaml lower
  rw [decide_eq_true_eq]
  simp only [List.mem_cons, List.not_mem_nil, or_false]
  rw [ends_yml, ends_yaml]

/-- A yaml file that is no UTF-8. -/
def Garbled (v : Valid) : Prop := (Ends v.path.name "yml" ∨ Ends v.path.name "yaml") ∧ v.text = none

theorem main_cases (v : Valid) :
    (Garbled v ∧ isMainFile v = .error .decode) ∨
    (¬ Garbled v ∧ Main v ∧ isMainFile v = .ok true) ∨ (¬ Garbled v ∧ ¬ Main v ∧ isMainFile v = .ok false) := by
  unfold isMainFile
  by_cases hy : v.path.isYaml = true
  · rw [if_pos hy]
    have hy' := (yaml_path _).mp hy
    cases ht : v.text with
    | none => exact .inl ⟨⟨hy', ht⟩, rfl⟩
    | some t =>
      right
      have hg : ¬ Garbled v := fun h => by have := h.2; rw [ht] at this; cases this
      have hm : isMain t = true ↔ ∃ w ∈ ["INSTALLATION", "TIME_SERIES", "FACILITY_INPUTS", "FUEL_TYPES"], w.toList <:+: t := by
        unfold isMain mainWords
        simp
      cases hb : isMain t with
      | true => exact .inl ⟨hg, ⟨hy', t, ht, hm.mp hb⟩, congrArg Except.ok hb⟩
      | false =>
        refine .inr ⟨hg, ?_, congrArg Except.ok hb⟩
        rintro ⟨-, t', ht', hw⟩
        rw [ht] at ht'
        cases Option.some.inj ht'
        rw [hm.mpr hw] at hb
        cases hb
  · rw [if_neg hy]
    right; right
    exact ⟨fun h => hy ((yaml_path _).mpr h.1), fun h => hy ((yaml_path _).mpr h.yaml), rfl⟩

theorem mains_eq (vs : List Valid) :
    ((∃ v ∈ vs, Garbled v) ∧ mainFiles vs = .error .decode) ∨
    ((∀ v ∈ vs, ¬ Garbled v) ∧ mainFiles vs = .ok (vs.filter fun v => decide (Main v))) := by
  induction vs with
  | nil => exact .inr ⟨by simp, rfl⟩
  | cons v vs ih =>
    unfold Archive.mainFiles
    rcases main_cases v with ⟨hg, h⟩ | ⟨hg, hm, h⟩ | ⟨hg, hm, h⟩
    · rw [h]; exact .inl ⟨⟨v, by simp, hg⟩, rfl⟩
    · rw [h]
      rcases ih with ⟨⟨w, hw, hgw⟩, h2⟩ | ⟨hn, h2⟩
      · rw [h2]; exact .inl ⟨⟨w, by simp [hw], hgw⟩, rfl⟩
      · rw [h2]
        refine .inr ⟨?_, ?_⟩
        · intro w hw
          rcases List.mem_cons.mp hw with rfl | hw
          · exact hg
          · exact hn w hw
        · rw [List.filter_cons_of_pos (by simpa using hm)]; rfl
    · rw [h]
      rcases ih with ⟨⟨w, hw, hgw⟩, h2⟩ | ⟨hn, h2⟩
      · rw [h2]; exact .inl ⟨⟨w, by simp [hw], hgw⟩, rfl⟩
      · rw [h2]
        refine .inr ⟨?_, ?_⟩
        · intro w hw
          rcases List.mem_cons.mp hw with rfl | hw
          · exact hg
          · exact hn w hw
        · rw [List.filter_cons_of_neg (by simpa using hm)]; rfl

/-- **C116.** The main file is the only yaml file with one of the main words, provided every yaml file is UTF-8; none or
several are refused. -/
theorem C116_main (vs : List Valid) :
    (∀ m, mainFile vs = .ok m ↔ (∀ v ∈ vs, ¬ Garbled v) ∧ ∃ l r, vs = l ++ m :: r ∧ Main m ∧ ∀ v ∈ l ++ r, ¬ Main v) ∧
    (mainFile vs = .error .noMain ↔ (∀ v ∈ vs, ¬ Garbled v) ∧ ∀ v ∈ vs, ¬ Main v) ∧
    (mainFile vs = .error .decode ↔ ∃ v ∈ vs, Garbled v) := by
  unfold Archive.mainFile
  rcases mains_eq vs with ⟨hg, h⟩ | ⟨hg, h⟩
  · rw [h]
    obtain ⟨w, hw, hgw⟩ := hg
    exact ⟨fun m => ⟨fun h => (by cases h), fun h => absurd hgw (h.1 w hw)⟩,
      ⟨fun h => (by cases h), fun h => absurd hgw (h.1 w hw)⟩, ⟨fun _ => ⟨w, hw, hgw⟩, fun _ => rfl⟩⟩
  · rw [h]
    have nog : ¬ ∃ v ∈ vs, Garbled v := by rintro ⟨v, hv, hgv⟩; exact hg v hv hgv
    have fil : ∀ l m r, vs = l ++ m :: r → Main m → (∀ v ∈ l ++ r, ¬ Main v) →
        (vs.filter fun v => decide (Main v)) = [m] := by
      intro l m r hvs hm hn
      rw [hvs, List.filter_append, List.filter_cons_of_pos (by simpa using hm)]
      have h1 : (l.filter fun v => decide (Main v)) = [] := by
        rw [List.filter_eq_nil_iff]; intro v hv; simpa using hn v (by simp [hv])
      have h2 : (r.filter fun v => decide (Main v)) = [] := by
        rw [List.filter_eq_nil_iff]; intro v hv; simpa using hn v (by simp [hv])
      rw [h1, h2]; rfl
    match hf : vs.filter fun v => decide (Main v) with
    | [] =>
      have hn : ∀ v ∈ vs, ¬ Main v := by
        intro v hv hm
        have := (List.mem_filter (p := fun v => decide (Main v))).mpr ⟨hv, decide_eq_true hm⟩
        rw [hf] at this
        cases this
      refine ⟨fun m => ⟨fun h => (by cases h), ?_⟩, ⟨fun _ => ⟨hg, hn⟩, fun _ => rfl⟩, ⟨fun h => (by cases h), fun h => absurd h nog⟩⟩
      rintro ⟨-, l, r, hvs, hm, -⟩
      exact absurd hm (hn m (by rw [hvs]; simp))
    | [a] =>
      have ha : a ∈ vs.filter fun v => decide (Main v) := by rw [hf]; simp
      obtain ⟨hav, ham⟩ := List.mem_filter.mp ha
      rw [decide_eq_true_eq] at ham
      refine ⟨fun m => ⟨fun h => ?_, ?_⟩, ⟨fun h => (by cases h), fun h => absurd ham (h.2 a hav)⟩,
        ⟨fun h => (by cases h), fun h => absurd h nog⟩⟩
      · cases Except.ok.inj h
        obtain ⟨l, r, hvs⟩ := List.append_of_mem hav
        refine ⟨hg, l, r, hvs, ham, ?_⟩
        have hlen : (vs.filter fun v => decide (Main v)).length = 1 := by rw [hf]; rfl
        rw [hvs, List.filter_append, List.filter_cons_of_pos (by simpa using ham), List.length_append,
          List.length_cons] at hlen
        intro v hv hm
        rcases List.mem_append.mp hv with hv | hv
        · have := List.length_pos_of_mem ((List.mem_filter (p := fun v => decide (Main v))).mpr ⟨hv, decide_eq_true hm⟩)
          omega
        · have := List.length_pos_of_mem ((List.mem_filter (p := fun v => decide (Main v))).mpr ⟨hv, decide_eq_true hm⟩)
          omega
      · rintro ⟨-, l, r, hvs, hm, hn⟩
        have := fil l m r hvs hm hn
        rw [hf] at this
        rw [(List.cons.inj this).1]
    | a :: b :: c =>
      refine ⟨fun m => ⟨fun h => (by cases h), ?_⟩, ⟨fun h => (by cases h), ?_⟩, ⟨fun h => (by cases h), fun h => absurd h nog⟩⟩
      · rintro ⟨-, l, r, hvs, hm, hn⟩
        have := fil l m r hvs hm hn
        rw [hf] at this
        cases this
      · rintro ⟨-, hn⟩
        have ha : a ∈ vs.filter fun v => decide (Main v) := by rw [hf]; simp
        obtain ⟨hav, ham⟩ := List.mem_filter.mp ha
        exact absurd (of_decide_eq_true ham) (hn a hav)

/-- **C116.** The main file does not depend on the order of the files. -/
theorem C116_any_order {vs ws : List Valid} (h : vs.Perm ws) : mainFile vs = mainFile ws := by
  unfold Archive.mainFile
  rcases mains_eq vs with ⟨⟨v, hv, hg⟩, h1⟩ | ⟨hg, h1⟩
  · rcases mains_eq ws with ⟨-, h2⟩ | ⟨hg', -⟩
    · rw [h1, h2]
    · exact absurd hg (hg' v (h.mem_iff.mp hv))
  · rcases mains_eq ws with ⟨⟨w, hw, hg'⟩, -⟩ | ⟨-, h2⟩
    · exact absurd hg' (hg w (h.mem_iff.mpr hw))
    · rw [h1, h2]
      have hp := h.filter fun v => decide (Main v)
      match hf : vs.filter fun v => decide (Main v), hf' : ws.filter fun v => decide (Main v) with
      | [], l => rw [hf, hf'] at hp; rw [List.nil_perm.mp hp]
      | [a], l => rw [hf, hf'] at hp; rw [List.singleton_perm.mp hp]
      | a :: b :: c, [] => rw [hf, hf'] at hp; exact absurd hp.length_eq (by simp)
      | a :: b :: c, [x] => rw [hf, hf'] at hp; exact absurd hp.length_eq (by simp)
      | a :: b :: c, x :: y :: z => rfl

/-! ## Paths -/

/-- The slashes a text starts with. -/
def leading (t : Text) : ℕ := (t.takeWhile (· = '/')).length

theorem root_eq (t : Text) : rootOf t = if leading t = 0 then 0 else if leading t = 2 then 2 else 1 := by
  unfold leading
  match t with
  | [] => rfl
  | [a] => by_cases ha : a = '/' <;> simp [rootOf, ha]
  | [a, b] => by_cases ha : a = '/' <;> by_cases hb : b = '/' <;> simp [rootOf, ha, hb]
  | a :: b :: c :: s =>
    by_cases ha : a = '/' <;> by_cases hb : b = '/' <;> by_cases hc : c = '/' <;> simp [rootOf, ha, hb, hc]

/-- **C116, paths.** Two names are the same file exactly if they have the same parts and both or neither start with a
slash, and both or neither with exactly two of them; the name of the file is the last part. -/
theorem C116_same_path (s t : Text) :
    (FPath.ofText s = FPath.ofText t ↔
      parts s = parts t ∧ (leading s = 0 ↔ leading t = 0) ∧ (leading s = 2 ↔ leading t = 2)) ∧
    Last s (FPath.ofText s).name := by
  refine ⟨?_, (last_iff s _).mpr rfl⟩
  unfold FPath.ofText
  rw [FPath.mk.injEq, root_eq, root_eq]
  constructor
  · rintro ⟨h, hp⟩
    refine ⟨hp, ?_⟩
    by_cases a : leading s = 0 <;> by_cases b : leading t = 0 <;> by_cases c : leading s = 2 <;>
      by_cases d : leading t = 2 <;> simp_all
  · rintro ⟨hp, h0, h2⟩
    refine ⟨?_, hp⟩
    by_cases a : leading s = 0 <;> by_cases b : leading t = 0 <;> by_cases c : leading s = 2 <;>
      by_cases d : leading t = 2 <;> simp_all

theorem infix_slash {k a b : Text} (hk : '/' ∉ k) (hne : k ≠ []) : k <:+: a ++ '/' :: b ↔ k <:+: a ∨ k <:+: b := by
  constructor
  · rintro ⟨x, y, h⟩
    rw [List.append_assoc] at h
    rcases List.append_eq_append_iff.mp h with ⟨u, hu, hv⟩ | ⟨u, hu, hv⟩
    · -- a = x ++ u, k ++ y = u ++ '/' :: b
      rcases List.append_eq_append_iff.mp hv with ⟨w, hw, hw'⟩ | ⟨w, hw, hw'⟩
      · exact .inl ⟨x, w, by rw [hu, hw, List.append_assoc]⟩
      · cases w with
        | nil => exact .inl ⟨x, [], by rw [hu, hw]; simp⟩
        | cons c w =>
          have hc : '/' = c := (List.cons.inj hw').1
          exact absurd (by rw [hw, ← hc]; simp) hk
    · -- x = a ++ u, '/' :: b = u ++ (k ++ y)
      cases u with
      | nil =>
        cases k with
        | nil => exact absurd rfl hne
        | cons c k =>
          have hc : '/' = c := (List.cons.inj hv).1
          exact absurd (by rw [← hc]; simp) hk
      | cons c u => exact .inr ⟨u, y, by rw [(List.cons.inj hv).2]; simp⟩
  · rintro (⟨x, y, h⟩ | ⟨x, y, h⟩)
    · exact ⟨x, y ++ '/' :: b, by rw [← h]; simp⟩
    · exact ⟨a ++ '/' :: x, y, by rw [← h]; simp⟩

theorem infix_join {k : Text} (hk : '/' ∉ k) (hne : k ≠ []) : ∀ ps : List Text,
    k <:+: join ps ↔ ∃ p ∈ ps, k <:+: p
  | [] => by
    constructor
    · intro h; exact absurd (List.infix_nil.mp h) hne
    · rintro ⟨p, hp, -⟩; exact absurd hp List.not_mem_nil
  | [p] => by simp [join]
  | p :: q :: ps => by
    show k <:+: p ++ '/' :: join (q :: ps) ↔ _
    rw [infix_slash hk hne, infix_join hk hne (q :: ps)]
    simp

theorem infix_str {k : Text} (hk : '/' ∉ k) (hne : k ≠ []) (hd : ¬ k <:+: ['.']) (p : FPath) :
    k <:+: p.str ↔ ∃ q ∈ p.parts, k <:+: q := by
  unfold FPath.str
  by_cases h : p.root = 0 ∧ p.parts = []
  · rw [if_pos h, h.2]
    exact ⟨fun x => absurd x hd, fun ⟨_, x, _⟩ => absurd x List.not_mem_nil⟩
  · rw [if_neg h]
    have : ∀ (n : ℕ) (s : Text), k <:+: List.replicate n '/' ++ s ↔ k <:+: s := by
      intro n s
      induction n with
      | zero => rfl
      | succ n ih =>
        have := infix_slash (a := []) (b := List.replicate n '/' ++ s) hk hne
        rw [List.nil_append] at this
        rw [List.replicate_succ, List.cons_append, this, ih]
        exact ⟨fun h => h.resolve_left fun x => hne (List.infix_nil.mp x), .inr⟩
    rw [this, infix_join hk hne]

/-- **C116, what is left out.** A file of an archive is left out without a word exactly if its name ends with a slash,
one of the parts of its path contains `.DS_Store` or `__MACOSX`, or its path is a folder where the process runs. -/
theorem C116_visible (isDir : FPath → Bool) (e : Entry) :
    (ignored isDir (FPath.ofText e.name) || e.isFolder) = true ↔
      (∃ t, e.name = t ++ ['/']) ∨
      (∃ p ∈ parts e.name, ".DS_Store".toList <:+: p ∨ "__MACOSX".toList <:+: p) ∨
      isDir (FPath.ofText e.name) = true := by
  have h1 := infix_str (k := ".DS_Store".toList) (by decide +kernel) (by decide +kernel) (by decide +kernel)
    (FPath.ofText e.name)
  have h2 := infix_str (k := "__MACOSX".toList) (by decide +kernel) (by decide +kernel) (by decide +kernel)
    (FPath.ofText e.name)
  have hv := visible_iff isDir e
  have hp : (FPath.ofText e.name).parts = parts e.name := rfl
  rw [hp] at h1 h2
  constructor
  · intro h
    by_contra hc
    push Not at hc
    have : Visible isDir e := ⟨fun ⟨t, ht⟩ => hc.1 t ht,
      fun x => by obtain ⟨p, m, i⟩ := h1.mp x; exact (hc.2.1 p m).1 i,
      fun x => by obtain ⟨p, m, i⟩ := h2.mp x; exact (hc.2.1 p m).2 i,
      by simpa using hc.2.2⟩
    rw [hv.mpr this] at h
    cases h
  · intro h
    by_contra hc
    have V := hv.mp (by simpa using hc)
    rcases h with ⟨t, ht⟩ | ⟨p, m, i | i⟩ | h
    · exact V.file ⟨t, ht⟩
    · exact V.hidden (h1.mpr ⟨p, m, i⟩)
    · exact V.mac (h2.mpr ⟨p, m, i⟩)
    · rw [V.folder] at h; cases h

/-! ## Findings -/

/-- A table and a model. -/
def table : Entry := ⟨"data/x.csv".toList, .bytes (some "A,B".toList)⟩
def model : Entry := ⟨"Main.YML".toList, .bytes (some "TIME_SERIES: []".toList)⟩

/-- **C116, finding.** A file of an archive is dropped without a word if a folder of its name exists where the process
runs. -/
theorem C116_server_folder : ∃ p : FPath,
    (unpack (fun _ => false) (some [table, model])).toOption.map (fun r => decide (p ∈ r.1.map Valid.path)) = some true ∧
    (unpack (fun q => decide (q = p)) (some [table, model])).toOption.map
      (fun r => (decide (p ∈ r.1.map Valid.path), r.2)) = some (false, []) :=
  ⟨FPath.ofText table.name, by decide +kernel⟩

/-- **C116, finding.** A file with an ending in capital letters is taken from an archive but refused by itself. -/
theorem C116_capitals :
    (match unpack (fun _ => false) (some [model]) with | .ok r => r.1.length | .error _ => 0) = 1 ∧
    (match validate (fun _ => false) [⟨model.name, some [], none⟩] with | .ok r => r.1.length | .error _ => 7) = 0 := by
  decide +kernel

/-- **C116, finding.** A yaml file that is no UTF-8 stops the choice with an error that is none of eCalc, though another
file is the main file. -/
theorem C116_garbled : mainFile
    [⟨FPath.ofText model.name, model.name, some "TIME_SERIES: []".toList, .yaml⟩,
      ⟨FPath.ofText "notes.yml".toList, "notes.yml".toList, none, .yaml⟩] = .error .decode := by decide +kernel

/-! ## Examples -/

/-- A folder, a hidden file, a table, a note and a model: the damaged note is not read. -/
example : unpack (fun _ => false) (some [⟨"data/".toList, .bytes none⟩, ⟨"data/.DS_Store".toList, .bytes none⟩, table,
      ⟨"note.txt".toList, .damaged⟩, model]) =
    .ok ([⟨⟨0, ["data".toList, "x.csv".toList]⟩, "x.csv".toList, some "A,B".toList, .csv⟩,
        ⟨⟨0, ["Main.YML".toList]⟩, "Main.YML".toList, some "TIME_SERIES: []".toList, .yaml⟩],
      [⟨⟨0, ["note.txt".toList]⟩, "note.txt".toList⟩]) := by decide +kernel

/-- Two spellings of a path are the same file; below the root it is another. -/
example : unpack (fun _ => false) (some [table, { table with name := "./data//x.csv".toList }]) = .error .duplicated ∧
    (match unpack (fun _ => false) (some [table, { table with name := "/data/x.csv".toList }]) with
      | .ok r => r.1.length
      | .error _ => 0) = 2 := by decide +kernel

/-- Three slashes are one, two are not; a hidden folder hides what is in it. -/
example : FPath.ofText "///a/b".toList = FPath.ofText "/a/./b".toList ∧
    FPath.ofText "//a/b".toList ≠ FPath.ofText "/a/b".toList ∧
    ignored (fun _ => false) (FPath.ofText "__MACOSX/x.csv".toList) = true := by decide +kernel

/-- A damaged table refuses the archive. -/
example : unpack (fun _ => false) (some [model, { table with body := .damaged }]) = .error .badZip := by decide +kernel

/-- An archive and a table cannot be combined. -/
example : validate (fun _ => false) [⟨"m.zip".toList, none, some [model]⟩, ⟨"x.csv".toList, some [], none⟩] =
    .error .combination := by decide +kernel

/-- The main file among others. -/
example : mainFile [⟨FPath.ofText "x.csv".toList, "x.csv".toList, none, .csv⟩,
      ⟨FPath.ofText model.name, model.name, some "TIME_SERIES: []".toList, .yaml⟩] =
    .ok ⟨FPath.ofText model.name, model.name, some "TIME_SERIES: []".toList, .yaml⟩ := by decide +kernel

end Verif.C116
