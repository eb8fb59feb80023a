import Verif.Model.Files
import Mathlib.Data.List.Infix
import Mathlib.Data.List.Nodup
import Mathlib.Data.List.Count

/-!
# C86 Files of a model
-/

namespace Verif.C86
open Verif.Files

/-- A proper name of a file or directory. -/
structure Proper (p : Text) : Prop where
  some : p ≠ []
  slash : '/' ∉ p
  dot : p ≠ ['.']
  up : p ≠ ['.', '.']

/-- Go from a directory along a path: `..` goes up. -/
def follow (dir : List Text) (path : List Text) : List Text :=
  path.foldl (fun d p => if p = ['.', '.'] then d.dropLast else d ++ [p]) dir

/-- The directory as text, with a slash behind every part. -/
def dirText (ps : List Text) : Text := (ps.map fun p => p ++ ['/']).flatten

/-- A main file: a yaml file that has one of the main words in it. -/
def Main (f : Text × Text) : Prop :=
  (lower (suffix f.1) = ".yml".toList ∨ lower (suffix f.1) = ".yaml".toList) ∧
  ∃ w ∈ [ "INSTALLATION", "TIME_SERIES", "FACILITY_INPUTS", "FUEL_TYPES" ], w.toList <:+: f.2

/-! ## Texts and paths -/

theorem split_append : ∀ {p : Text} (t : Text), '/' ∉ p → split (p ++ '/' :: t) = p :: split t := by
  intro p t hp
  induction p with
  | nil => simp [split]
  | cons c p ih =>
    simp only [List.mem_cons, not_or] at hp
    rw [List.cons_append, split, if_neg (Ne.symm hp.1), ih hp.2]

theorem split_single : ∀ {p : Text}, '/' ∉ p → split p = [p] := by
  intro p hp
  induction p with
  | nil => rfl
  | cons c p ih =>
    simp only [List.mem_cons, not_or] at hp
    rw [split, if_neg (Ne.symm hp.1), ih hp.2]

theorem join_cons (p : Text) {ps : List Text} (h : ps ≠ []) : join (p :: ps) = p ++ '/' :: join ps := by
  cases ps with
  | nil => exact absurd rfl h
  | cons q qs => rfl

theorem split_join : ∀ {ps : List Text}, ps ≠ [] → (∀ p ∈ ps, '/' ∉ p) → split (join ps) = ps := by
  intro ps
  induction ps with
  | nil => intro h; exact absurd rfl h
  | cons p ps ih =>
    intro _ hs
    by_cases h : ps = []
    · subst h; exact split_single (hs p (by simp))
    · rw [join_cons p h, split_append _ (hs p (by simp)), ih h fun q hq => hs q (List.mem_cons_of_mem _ hq)]

theorem join_inj {ps qs : List Text} (hp : ps ≠ []) (hq : qs ≠ []) (sp : ∀ p ∈ ps, '/' ∉ p) (sq : ∀ p ∈ qs, '/' ∉ p)
    (h : join ps = join qs) : ps = qs := by
  rw [← split_join hp sp, h, split_join hq sq]

theorem parts_join {ps : List Text} (h : ps ≠ []) (hp : ∀ p ∈ ps, Proper p) : parts (join ps) = ps := by
  unfold parts
  rw [split_join h fun p hm => (hp p hm).slash, List.filter_eq_self]
  intro p hm
  simp [(hp p hm).some, (hp p hm).dot]

theorem join_append : ∀ (ps : List Text) {qs : List Text}, qs ≠ [] → join (ps ++ qs) = dirText ps ++ join qs := by
  intro ps qs hq
  induction ps with
  | nil => simp [dirText]
  | cons p ps ih =>
    rw [List.cons_append, join_cons p (by simp [hq]), ih]
    simp [dirText]

theorem common_eq : ∀ (ps : List Text) {a b : Text} {as bs : List Text}, a ≠ b →
    commonPath (ps ++ a :: as) (ps ++ b :: bs) = dirText ps := by
  intro ps a b as bs hab
  induction ps with
  | nil => simp [commonPath, hab, dirText]
  | cons p ps ih => simp [commonPath, ih, dirText]

theorem remove_skip (old : Text) : ∀ (xs ys : Text), removeAll old xs.length (xs ++ ys) = removeAll old 0 ys := by
  intro xs ys
  induction xs with
  | nil => rfl
  | cons x xs ih => simpa [removeAll] using ih

theorem remove_none (old : Text) : ∀ s : Text, old = [] ∨ ¬ old <:+: s → removeAll old 0 s = s := by
  intro s
  induction s with
  | nil => intro _; rfl
  | cons c cs ih =>
    intro h
    rw [removeAll]
    rw [if_neg, ih]
    · rcases h with h | h
      · exact .inl h
      · exact .inr fun hc => h (hc.trans (List.suffix_cons c cs).isInfix)
    · rintro ⟨h1, h2⟩
      rcases h with h | h
      · exact h2 h
      · exact h (List.isPrefixOf_iff_prefix.mp h1).isInfix

theorem strip_eq (old s : Text) (h : old = [] ∨ ¬ old <:+: s) : stripCommon old (old ++ s) = s := by
  unfold stripCommon
  cases old with
  | nil => exact remove_none [] s (.inl rfl)
  | cons c cs =>
    rw [List.cons_append, removeAll, if_pos]
    · rw [List.length_cons, Nat.add_sub_cancel, remove_skip]
      exact remove_none _ _ h
    · refine ⟨?_, by simp⟩
      rw [List.isPrefixOf_iff_prefix]
      exact ⟨s, by simp⟩

theorem ups (l : List Text) (linked : List Text) (hl : linked ≠ []) :
    l.foldl (fun l (_ : Text) => '.' :: '.' :: '/' :: l) (join linked) =
      join (List.replicate l.length ['.', '.'] ++ linked) := by
  induction l generalizing linked with
  | nil => rfl
  | cons a l ih =>
    rw [List.foldl_cons]
    have e : '.' :: '.' :: '/' :: join linked = join (['.', '.'] :: linked) := by rw [join_cons _ hl]; rfl
    rw [e, ih _ (by simp), List.length_cons]
    congr 1
    rw [show l.length + 1 = l.length + 1 from rfl, List.replicate_succ', List.append_assoc]
    rfl

theorem follow_up : ∀ (k : Nat) (dir rest path : List Text), rest.length = k →
    follow (dir ++ rest) (List.replicate k ['.', '.'] ++ path) = follow dir path := by
  intro k
  induction k with
  | zero => intro dir rest path h; rw [List.length_eq_zero_iff.mp h]; simp
  | succ k ih =>
    intro dir rest path h
    have hne : rest ≠ [] := by rintro rfl; simp at h
    rw [List.replicate_succ, List.cons_append]
    unfold follow
    rw [List.foldl_cons, if_pos rfl, List.dropLast_append_of_ne_nil hne]
    exact ih dir rest.dropLast path (by simp [h])

theorem follow_down : ∀ (path dir : List Text), (∀ p ∈ path, p ≠ ['.', '.']) → follow dir path = dir ++ path := by
  intro path
  induction path with
  | nil => intro dir _; simp [follow]
  | cons p path ih =>
    intro dir h
    have := ih (dir ++ [p]) fun q hq => h q (List.mem_cons_of_mem _ hq)
    unfold follow at this ⊢
    rw [List.foldl_cons, if_neg (h p (by simp)), this]
    simp

/-! ## Theorems -/

/-- **Found again.** From the directory of the main file the relative path leads to the file, provided the text of the
common directory does not turn up a second time in either path. -/
theorem C86_relative_path (common rest mrest : List Text) (a b : Text) (hab : a ≠ b)
    (hc : ∀ p ∈ common, Proper p) (hf : ∀ p ∈ a :: rest, Proper p) (hm : ∀ p ∈ b :: mrest, Proper p)
    (once : ¬ dirText common <:+: join (a :: rest) ∨ common = [])
    (once' : ¬ dirText common <:+: join (b :: mrest) ∨ common = []) :
    ∃ path, relativePath (common ++ a :: rest) (common ++ b :: mrest) = join path ∧ (∀ p ∈ path, '/' ∉ p) ∧
      follow (common ++ b :: mrest).dropLast path = common ++ a :: rest := by
  refine ⟨List.replicate (b :: mrest).dropLast.length ['.', '.'] ++ a :: rest, ?_, ?_, ?_⟩
  · unfold relativePath
    simp only
    rw [common_eq common hab, join_append common (by simp), join_append common (by simp),
      strip_eq _ _ (once.symm.imp (by rintro rfl; rfl) id), strip_eq _ _ (once'.symm.imp (by rintro rfl; rfl) id)]
    unfold makeRelative
    rw [parts_join (by simp) hm, ups _ _ (by simp)]
  · intro p hp
    rcases List.mem_append.mp hp with h | h
    · rw [(List.mem_replicate.mp h).2]; decide
    · exact (hf p h).slash
  · rw [List.dropLast_append_of_ne_nil (by simp), follow_up _ _ _ _ rfl,
      follow_down _ _ fun p hp => (hf p hp).up]

/-- **Deviation: the text of the common directory is removed wherever it occurs.** With the main file `a/main.yml`, the
file `a/data/x.csv` is looked for at `datx.csv`. -/
theorem C86_relative_path_broken :
    relativePath ["a".toList, "data".toList, "x.csv".toList] ["a".toList, "main.yml".toList] = "datx.csv".toList ∧
    follow ["a".toList] ["datx.csv".toList] ≠ ["a".toList, "data".toList, "x.csv".toList] := by decide +kernel

theorem single_of_no_slash {ps : List Text} (h : ps ≠ []) (hn : '/' ∉ join ps) : ∃ p, ps = [p] := by
  cases ps with
  | nil => exact absurd rfl h
  | cons p ps =>
    cases ps with
    | nil => exact ⟨p, rfl⟩
    | cons q qs => exfalso; apply hn; rw [join_cons p (by simp)]; simp

theorem join_mem : ∀ {ps : List Text} {c : Char}, c ∈ join ps → c = '/' ∨ ∃ p ∈ ps, c ∈ p := by
  intro ps
  induction ps with
  | nil => intro c h; cases h
  | cons p ps ih =>
    intro c h
    by_cases hp : ps = []
    · subst hp; exact .inr ⟨p, by simp, h⟩
    · rw [join_cons p hp] at h
      rcases List.mem_append.mp h with h | h
      · exact .inr ⟨p, by simp, h⟩
      · rcases List.mem_cons.mp h with h | h
        · exact .inl h
        · rcases ih h with h | ⟨q, hq, hc⟩
          · exact .inl h
          · exact .inr ⟨q, List.mem_cons_of_mem _ hq, hc⟩

theorem name_mem {ps : List Text} (h : ps ≠ []) : name ps ∈ ps := by
  unfold name
  rw [List.getLast?_eq_getLast_of_ne_nil h]
  exact List.getLast_mem h

theorem mem_duplicates (files : List (List Text)) (n : Text) :
    n ∈ duplicates files ↔ 1 < (files.map name).count n := by
  unfold duplicates
  simp only [List.mem_filter, List.mem_eraseDups, decide_eq_true_eq, and_iff_right_iff_imp]
  intro h
  exact List.count_pos_iff.mp (by omega)

theorem count_two {files : List (List Text)} {f g : List Text} (hf : f ∈ files) (hg : g ∈ files) (hne : f ≠ g)
    (hn : name f = name g) : 1 < (files.map name).count (name f) := by
  rw [List.count_eq_countP, List.countP_map, List.countP_eq_length_filter]
  have m1 : f ∈ files.filter ((fun x => x == name f) ∘ name) := by simp [hf]
  have m2 : g ∈ files.filter ((fun x => x == name f) ∘ name) := by simp [hg, hn]
  cases hl : files.filter ((fun x => x == name f) ∘ name) with
  | nil => rw [hl] at m1; cases m1
  | cons x l =>
    cases l with
    | nil =>
      rw [hl] at m1 m2
      simp at m1 m2
      exact absurd (m1.trans m2.symm) hne
    | cons y l => simp

theorem map_inj : ∀ {s t : Text}, '_' ∉ s → '_' ∉ t →
    (s.map fun c => if c = '/' then '_' else c) = (t.map fun c => if c = '/' then '_' else c) → s = t := by
  intro s
  induction s with
  | nil => intro t _ _ h; simpa using h.symm
  | cons c s ih =>
    intro t hs ht h
    cases t with
    | nil => simp at h
    | cons d t =>
      simp only [List.mem_cons, not_or] at hs ht
      simp only [List.map_cons, List.cons.injEq] at h
      refine congrArg₂ _ ?_ (ih hs.2 ht.2 h.2)
      have h1 := h.1
      split_ifs at h1 with a b b
      · rw [a, b]
      · exact absurd h1 ht.1
      · exact absurd h1.symm hs.1
      · exact h1

/-- **Flat names.** When no name contains an underscore, files with different paths get different names; a file whose
name is unique keeps it. -/
theorem C86_unique_names (files : List (List Text)) (hne : ∀ f ∈ files, f ≠ []) (hs : ∀ f ∈ files, ∀ p ∈ f, '/' ∉ p)
    (hu : ∀ f ∈ files, ∀ p ∈ f, '_' ∉ p) :
    (∀ f ∈ files, ∀ g ∈ files, renamed (duplicates files) f = renamed (duplicates files) g → f = g) ∧
    (∀ f ∈ files, (∀ g ∈ files, g ≠ f → name g ≠ name f) → files.Nodup → renamed (duplicates files) f = name f) := by
  have hj : ∀ f ∈ files, '_' ∉ join f := by
    intro f hf hc
    rcases join_mem hc with h | ⟨p, hp, h⟩
    · exact absurd h (by decide)
    · exact hu f hf p hp h
  have cross : ∀ f ∈ files, ∀ g ∈ files, name f ∈ duplicates files → name g ∉ duplicates files →
      renamed (duplicates files) f = renamed (duplicates files) g → False := by
    intro f hf g hg df dg h
    unfold renamed at h
    rw [if_pos df, if_neg dg] at h
    have hns : '/' ∉ join f := by
      intro hc
      have : '_' ∈ (join f).map (fun c => if c = '/' then '_' else c) := List.mem_map.mpr ⟨'/', hc, by simp⟩
      rw [h] at this
      exact hu g hg _ (name_mem (hne g hg)) this
    obtain ⟨p, rfl⟩ := single_of_no_slash (hne f hf) hns
    have e : (join [p]).map (fun c => if c = '/' then '_' else c) = p := by
      conv_rhs => rw [← List.map_id p]
      apply List.map_congr_left
      intro c hc
      rw [if_neg]
      · rfl
      · rintro rfl; exact hns hc
    rw [e] at h
    apply dg
    rw [← h]
    exact df
  refine ⟨fun f hf g hg h => ?_, fun f hf huniq hnd => ?_⟩
  · by_cases df : name f ∈ duplicates files <;> by_cases dg : name g ∈ duplicates files
    · unfold renamed at h
      rw [if_pos df, if_pos dg] at h
      exact join_inj (hne f hf) (hne g hg) (hs f hf) (hs g hg) (map_inj (hj f hf) (hj g hg) h)
    · exact (cross f hf g hg df dg h).elim
    · exact (cross g hg f hf dg df h.symm).elim
    · by_contra hfg
      unfold renamed at h
      rw [if_neg df, if_neg dg] at h
      exact df ((mem_duplicates files _).mpr (count_two hf hg hfg h))
  · unfold renamed
    rw [if_neg]
    rw [mem_duplicates, not_lt, List.count_eq_countP, List.countP_map, List.countP_eq_length_filter]
    have : files.filter ((fun x => x == name f) ∘ name) = files.filter (fun g => g == f) := by
      apply List.filter_congr
      intro g hg
      by_cases h : g = f
      · simp [h]
      · have := huniq g hg h
        simp [h, this]
    rw [this, ← List.countP_eq_length_filter, ← List.count_eq_countP]
    exact List.nodup_iff_count_le_one.mp hnd f

/-- **Deviation: two files can get the same name.** `a/x.csv` is renamed to the name of `a_x.csv`. -/
theorem C86_name_collision :
    let files := [["a".toList, "x.csv".toList], ["b".toList, "x.csv".toList], ["a_x.csv".toList]]
    files.Nodup ∧ renamed (duplicates files) ["a".toList, "x.csv".toList] = renamed (duplicates files) ["a_x.csv".toList] := by
  decide +kernel

/-! ### File types -/

theorem sort_ok {n : Nat} {f : Text} {s : Sorted} (h : sortFile n f = .ok s) :
    (s = .valid ↔ suffix f ∈ [".csv".toList, ".yaml".toList, ".yml".toList]) ∧
    (s = .zip ↔ suffix f = ".zip".toList) ∧ (s = .zip → n ≤ 1) := by
  unfold sortFile allowed at h
  by_cases hd : '.' ∈ f
  · rw [if_pos hd] at h
    by_cases hs : suffix f = []
    · rw [if_pos hs] at h; cases h
    rw [if_neg hs] at h
    by_cases ht : (suffix f).tail ∈ [['y','a','m','l'], ['c','s','v'], ['y','m','l'], ['z','i','p']]
    · have hdot : ∃ t, suffix f = '.' :: t := by
        unfold suffix at hs ⊢
        simp only at hs ⊢
        split_ifs at hs ⊢ with h1
        · exact ⟨_, rfl⟩
        · exact absurd rfl hs
      obtain ⟨t, ht'⟩ := hdot
      rw [ht', List.tail_cons] at ht
      simp only [ht', List.tail_cons, ht, decide_true, isZip, isCsv, isYaml] at h
      simp only [List.mem_cons, List.not_mem_nil, or_false] at ht
      rw [ht']
      rcases ht with rfl | rfl | rfl | rfl
      · rw [if_neg (by decide +kernel), if_pos (by decide +kernel)] at h
        cases Except.ok.inj h; exact ⟨by decide, by decide, by simp⟩
      · rw [if_neg (by decide +kernel), if_pos (by decide +kernel)] at h
        cases Except.ok.inj h; exact ⟨by decide, by decide, by simp⟩
      · rw [if_neg (by decide +kernel), if_pos (by decide +kernel)] at h
        cases Except.ok.inj h; exact ⟨by decide, by decide, by simp⟩
      · rw [if_pos (by decide +kernel)] at h
        split_ifs at h with hn
        cases Except.ok.inj h
        refine ⟨by decide, by decide, fun _ => by omega⟩
    · simp only [ht, decide_false] at h
      cases Except.ok.inj h
      have h1 : suffix f ∉ [".csv".toList, ".yaml".toList, ".yml".toList] := by
        intro hc
        apply ht
        simp only [List.mem_cons, List.not_mem_nil, or_false] at hc
        rcases hc with e | e | e <;> rw [e] <;> decide
      have h2 : suffix f ≠ ".zip".toList := by
        intro e; apply ht; rw [e]; decide
      exact ⟨⟨by simp, fun hc => absurd hc h1⟩, ⟨by simp, fun hc => absurd hc h2⟩, by simp⟩
  · rw [if_neg hd] at h
    cases Except.ok.inj h
    have hsuf : suffix f = [] := by
      unfold suffix
      simp only
      rw [if_neg]
      rintro ⟨h1, -, -⟩
      apply hd
      have key : ∀ t : Text, ∀ p ∈ split t, ∀ c ∈ p, c ∈ t := by
        intro t
        induction t with
        | nil => intro p hp c hc; simp [split] at hp; subst hp; exact hc
        | cons a t ih =>
          intro p hp c hc
          rw [split] at hp
          by_cases ha : a = '/'
          · rw [if_pos ha] at hp
            rcases List.mem_cons.mp hp with rfl | hp
            · cases hc
            · exact List.mem_cons_of_mem _ (ih p hp c hc)
          · rw [if_neg ha] at hp
            cases hsp : split t with
            | nil => rw [hsp] at hp; simp at hp; subst hp; simp at hc; simp [hc]
            | cons q qs =>
              rw [hsp] at hp ih
              rcases List.mem_cons.mp hp with rfl | hp
              · rcases List.mem_cons.mp hc with rfl | hc
                · simp
                · exact List.mem_cons_of_mem _ (ih q (by simp) c hc)
              · exact List.mem_cons_of_mem _ (ih p (List.mem_cons_of_mem _ hp) c hc)
      by_cases hp : parts f = []
      · rw [hp] at h1; simp [name] at h1
      · have := name_mem hp
        unfold parts at this
        exact key f _ (List.mem_filter.mp this).1 '.' h1
    rw [hsuf]
    exact ⟨by decide, by decide, by simp⟩

/-- **Sorting the files.** When the files are accepted, each one is reported once and in order: as valid exactly when it
ends in `.csv`, `.yaml` or `.yml`, as an archive when it ends in `.zip` and is alone, and as invalid otherwise. -/
theorem C86_filetypes (files : List Text) (r : List (Text × Sorted)) (h : validateFiletypes files = .ok r) :
    r.map (·.1) = files ∧ ∀ q ∈ r,
      (q.2 = .valid ↔ suffix q.1 ∈ [".csv".toList, ".yaml".toList, ".yml".toList]) ∧
      (q.2 = .zip ↔ suffix q.1 = ".zip".toList) ∧ (q.2 = .zip → files = [q.1]) := by
  have loop : ∀ (n : Nat) (fs : List Text) (r : List (Text × Sorted)), sortFiles n fs = .ok r →
      r.map (·.1) = fs ∧ ∀ q ∈ r, sortFile n q.1 = .ok q.2 := by
    intro n fs
    induction fs with
    | nil => intro r h; cases Except.ok.inj h; simp
    | cons f fs ih =>
      intro r h
      rw [sortFiles] at h
      cases h1 : sortFile n f with
      | error e => rw [h1] at h; cases h
      | ok s =>
        rw [h1] at h
        simp only at h
        cases h2 : sortFiles n fs with
        | error e => rw [h2] at h; cases h
        | ok r' =>
          rw [h2] at h
          cases Except.ok.inj h
          obtain ⟨i1, i2⟩ := ih r' h2
          refine ⟨by simp [i1], ?_⟩
          intro q hq
          rcases List.mem_cons.mp hq with rfl | hq
          · exact h1
          · exact i2 q hq
  obtain ⟨l1, l2⟩ := loop _ _ _ h
  refine ⟨l1, fun q hq => ?_⟩
  obtain ⟨a, b, c⟩ := sort_ok (l2 q hq)
  refine ⟨a, b, fun hz => ?_⟩
  have hlen := c hz
  have hmem : q.1 ∈ files := by rw [← l1]; exact List.mem_map.mpr ⟨q, hq, rfl⟩
  cases files with
  | nil => cases hmem
  | cons f fs =>
    have : fs = [] := by simpa using hlen
    subst this
    simp at hmem
    rw [hmem]

/-- **Deviations.** A name that ends in a dot stops the sorting with an error that names no file, and the ending has to
be in lower case although the tests for the type ignore the case. -/
theorem C86_endings :
    validateFiletypes ["main.yml".toList, "notes.".toList] = .error .index ∧
    validateFiletypes ["X.CSV".toList] = .ok [("X.CSV".toList, .invalid)] ∧ isCsv "X.CSV".toList = true := by
  decide +kernel

/-- **The main file.** It is the only yaml file with one of the main words; none or several are refused. -/
theorem C86_main_file (files : List (Text × Text)) (f : Text × Text) :
    (mainFile files = .ok f ↔ ∃ l r, files = l ++ f :: r ∧ Main f ∧ ∀ g ∈ l ++ r, ¬ Main g) ∧
    (mainFile files = .error .noMain ↔ ∀ g ∈ files, ¬ Main g) := by
  have hm : ∀ g : Text × Text, (isYaml g.1 && isMain g.2) = true ↔ Main g := by
    intro g
    unfold isYaml isMain Main mainWords
    simp
  have hf : files.filter (fun g => isYaml g.1 && isMain g.2) = [] ↔ ∀ g ∈ files, ¬ Main g := by
    rw [List.filter_eq_nil_iff]
    simp only [hm]
  have split1 : ∀ fs : List (Text × Text), fs.filter (fun g => isYaml g.1 && isMain g.2) = [f] ↔
      ∃ l r, fs = l ++ f :: r ∧ Main f ∧ ∀ g ∈ l ++ r, ¬ Main g := by
    intro fs
    constructor
    · intro h
      rw [List.filter_eq_cons_iff] at h
      obtain ⟨l, r, h1, h2, h3, h4⟩ := h
      refine ⟨l, r, h1, (hm f).mp h3, ?_⟩
      intro g hg
      rcases List.mem_append.mp hg with hg | hg
      · exact (hm g).not.mp (h2 g hg)
      · exact (hm g).not.mp (List.filter_eq_nil_iff.mp h4 g hg)
    · rintro ⟨l, r, rfl, h1, h2⟩
      have e1 : l.filter (fun g => isYaml g.1 && isMain g.2) = [] := by
        rw [List.filter_eq_nil_iff]
        intro g hg
        exact (hm g).not.mpr (h2 g (List.mem_append_left _ hg))
      have e2 : r.filter (fun g => isYaml g.1 && isMain g.2) = [] := by
        rw [List.filter_eq_nil_iff]
        intro g hg
        exact (hm g).not.mpr (h2 g (List.mem_append_right _ hg))
      rw [List.filter_append, List.filter_cons, if_pos ((hm f).mpr h1), e1, e2]
      rfl
  rw [← split1, ← hf]
  unfold mainFile
  generalize files.filter (fun g => isYaml g.1 && isMain g.2) = l
  match l with
  | [] => simp
  | [g] => simp
  | g :: g' :: l => simp

/-! ## Examples -/

example : relativePath ["resources".toList, "file.yaml".toList] ["main".toList, "main.yaml".toList] =
    "../resources/file.yaml".toList := by decide +kernel
example : relativePath ["m".toList, "r".toList, "f.csv".toList] ["m".toList, "x".toList, "y".toList, "n.yml".toList] =
    "../../r/f.csv".toList := by decide +kernel
example : ¬ dirText ["m".toList] <:+: join ["r".toList, "f.csv".toList] := by decide +kernel
example : renamed (duplicates [["a".toList, "x.csv".toList], ["x.csv".toList]]) ["a".toList, "x.csv".toList] =
    "a_x.csv".toList := by decide +kernel
example : validateFiletypes ["main.yml".toList, "x.csv".toList, "readme".toList] =
    .ok [("main.yml".toList, .valid), ("x.csv".toList, .valid), ("readme".toList, .invalid)] := by decide +kernel
example : mainFile [("a.yml".toList, "FUEL_TYPES: x".toList), ("b.yml".toList, "y: 1".toList)] =
    .ok ("a.yml".toList, "FUEL_TYPES: x".toList) := by decide +kernel

end Verif.C86
