import Verif.Model.RunFiles
import Mathlib.Data.List.Nodup
import Mathlib.Tactic.Linarith

/-!
C107: the files a run writes.

The specification is a list of names and contents for each set of options (`wanted`), in terms of the prefix and of its
part before the last dot. The theorems say that these files, and no others, are there after the run, that nothing else is
touched, what is left behind when a run fails, and which runs overwrite files of each other.
-/

namespace Verif.C107

open Verif.RunFiles

/-! ## Specification -/

/-- A name for a file: not empty, without slash, and not a dot alone. -/
def Plain (n : Name) : Prop := n ≠ [] ∧ '/' ∉ n ∧ n ≠ ['.']

/-- `b` is the name `n` without its last dot and what follows, if there is something before and something after that
dot, and `n` itself otherwise. -/
def Base (n b : Name) : Prop :=
  (b ≠ [] ∧ ∃ e, e ≠ [] ∧ '.' ∉ e ∧ n = b ++ '.' :: e) ∨
  (b = n ∧ ∀ a e, n = a ++ '.' :: e → '.' ∉ e → a = [] ∨ e = [])

/-- The names and contents of the files a run is to write, by its options, its prefix `p`, its base `b` and the names of
the installations. -/
def wanted (o : Opts) (id : ℕ) (p b : Name) (gs : List Name) : List (Name × File) :=
  (if o.flow then [(p ++ ".flow-diagram.json".toList, ⟨id, .diagram⟩)] else []) ++
  (if o.csv then [(b ++ ".csv".toList, ⟨id, .table⟩), (b ++ "_intensity.csv".toList, ⟨id, .intensityTable⟩)] else []) ++
  (if o.json then [(p ++ "_v3.json".toList, ⟨id, .result (!o.detailed)⟩), (p ++ "_run_info.json".toList, ⟨id, .runInfo⟩),
    (b ++ "_intensity.json".toList, ⟨id, .intensity⟩)] else []) ++
  (if o.ltp then gs.map fun g => (p ++ '.' :: (g ++ ".ltp.tsv".toList), ⟨id, .long g⟩) else []) ++
  (if o.stp then gs.map fun g => (p ++ '.' :: (g ++ ".stp.tsv".toList), ⟨id, .short g⟩) else [])

/-- A path in a folder. -/
def under (f : Path) (n : Name) : Path := ⟨f.abs, f.parts ++ [n]⟩

/-- A run that can succeed: the model is there, the folder is there or can be made, no folder is in the way of a file,
and all parts of eCalc succeed. -/
structure Good (o : Opts) (j : Job) (d : Disk) (gs : List Name) : Prop where
  model : d.files o.model ≠ none
  parent : d.dirs o.folder.parent = true
  free : d.dirs o.folder = true ∨ d.files o.folder = none
  clear : ∀ n, d.dirs (under o.folder n) = false
  loaded : j.loaded = .ok ()
  evaluated : j.evaluated = .ok ()
  long : j.long = .ok gs
  short : j.short = .ok gs
  groups : gs.Nodup
  slash : ∀ g ∈ gs, '/' ∉ g

/-! ## Names -/

theorem partsOf_plain {n : Name} (h : Plain n) : partsOf n = [n] := by
  unfold partsOf
  have : n.splitOn '/' = [n] := by
    unfold List.splitOn
    refine List.splitOnP_eq_singleton ?_
    intro x hx
    have : x ≠ '/' := fun e => h.2.1 (e ▸ hx)
    simpa using this
  rw [this]
  simp [h.1, h.2.2]

theorem join_plain (f : Path) {n : Name} (h : Plain n) : f.join n = under f n := by
  unfold Path.join under
  rw [if_neg, partsOf_plain h]
  intro hh
  cases n with
  | nil => cases hh
  | cons c n =>
    simp only [List.head?_cons, Option.some.injEq] at hh
    exact h.2.1 (hh ▸ List.mem_cons_self)

theorem join_dot (f : Path) (n : Name) (h : n.head? ≠ some '/') : f.join ('.' :: '/' :: n) = f.join n := by
  unfold Path.join
  rw [if_neg (by simp), if_neg h]
  have : partsOf ('.' :: '/' :: n) = partsOf n := by
    unfold partsOf
    have hs : List.splitOn '/' ('.' :: '/' :: n) = ['.'] :: List.splitOn '/' n := by
      simp [List.splitOn, List.splitOnP_cons_eq_if_modifyHead]
    rw [hs, List.filter_cons_of_neg (by decide)]
  rw [this]

theorem stem_base (n : Name) : Base n (stem n) := by
  unfold stem
  have hsplit := List.takeWhile_append_dropWhile (p := fun c => decide (c ≠ '.')) (l := n.reverse)
  have htake : ∀ c ∈ n.reverse.takeWhile (fun c => decide (c ≠ '.')), c ≠ '.' := by
    intro c hc
    have := List.all_takeWhile (p := fun c => decide (c ≠ '.')) (l := n.reverse)
    simpa using List.all_eq_true.1 this c hc
  have hhead : ∀ c before, n.reverse.dropWhile (fun c => decide (c ≠ '.')) = c :: before → c = '.' := by
    intro c before h
    have := List.head_dropWhile_not (fun c => decide (c ≠ '.')) (l := n.reverse) (by rw [h]; simp)
    simp only [h, List.head_cons] at this
    simpa using this
  generalize n.reverse.takeWhile (fun c => decide (c ≠ '.')) = ext at *
  generalize hr : n.reverse.dropWhile (fun c => decide (c ≠ '.')) = rest at *
  cases rest with
  | nil =>
    refine .inr ⟨rfl, fun a e hn he => ?_⟩
    exfalso
    rw [List.append_nil] at hsplit
    have : '.' ∈ n.reverse := by rw [hn]; simp
    rw [← hsplit] at this
    exact htake _ this rfl
  | cons c before =>
    have hc := hhead c before rfl
    subst hc
    have hn : n = before.reverse ++ '.' :: ext.reverse := by
      have := congrArg List.reverse hsplit
      simpa using this.symm
    dsimp only
    have uniq : ∀ a e : Name, n = a ++ '.' :: e → '.' ∉ e → a = before.reverse ∧ e = ext.reverse := by
      intro a e h1 h2
      have hx : '.' ∉ ext.reverse := by
        intro hm; exact htake _ (by simpa using hm) rfl
      rw [hn] at h1
      rcases List.append_eq_append_iff.1 h1 with ⟨w, rfl, hw⟩ | ⟨w, hw1, hw⟩
      · cases w with
        | nil => simp at hw; exact ⟨by simp, hw.symm⟩
        | cons y w =>
          rw [List.cons_append] at hw
          injection hw with _ hw
          exact absurd (by rw [hw]; simp) hx
      · cases w with
        | nil => simp at hw; exact ⟨by simpa using hw1.symm, hw⟩
        | cons y w =>
          rw [List.cons_append] at hw
          injection hw with _ hw
          exact absurd (by rw [hw]; simp) h2
    by_cases h : ext = [] ∨ before = []
    · rw [if_pos h]
      refine .inr ⟨rfl, fun a e h1 h2 => ?_⟩
      obtain ⟨rfl, rfl⟩ := uniq a e h1 h2
      rcases h with h | h
      · right; simp [h]
      · left; simp [h]
    · rw [if_neg h]
      push Not at h
      exact .inl ⟨by simpa using h.2, ext.reverse, by simpa using h.1,
        fun hm => htake _ (by simpa using hm) rfl, hn⟩

theorem base_unique {n b b' : Name} (h : Base n b) (h' : Base n b') : b = b' := by
  rcases h with ⟨hb, e, he, hd, hn⟩ | ⟨rfl, h⟩ <;> rcases h' with ⟨hb', e', he', hd', hn'⟩ | ⟨rfl, h'⟩
  · rw [hn] at hn'
    rcases List.append_eq_append_iff.1 hn' with ⟨w, rfl, hw⟩ | ⟨w, hw1, hw⟩
    · cases w with
      | nil => simp
      | cons y w =>
        rw [List.cons_append] at hw
        injection hw with _ hw
        exact absurd (by rw [hw]; simp) hd
    · cases w with
      | nil => simpa using hw1
      | cons y w =>
        rw [List.cons_append] at hw
        injection hw with _ hw
        exact absurd (by rw [hw]; simp) hd'
  · rcases h' _ _ hn hd with h | h
    · exact absurd h hb
    · exact absurd h he
  · rcases h _ _ hn' hd' with h | h
    · exact absurd h hb'
    · exact absurd h he'
  · rfl

theorem base_slash {n b : Name} (h : Base n b) (hn : '/' ∉ n) : '/' ∉ b := by
  rcases h with ⟨_, e, _, _, rfl⟩ | ⟨rfl, _⟩
  · exact fun hm => hn (by simp [hm])
  · exact hn

theorem base_nil {n b : Name} (h : Base n b) (hn : n ≠ []) : b ≠ [] := by
  rcases h with ⟨hb, _⟩ | ⟨rfl, _⟩
  · exact hb
  · exact hn

theorem plain_append {n s : Name} (hn : '/' ∉ n) (hs : '/' ∉ s) (h : 2 ≤ s.length) : Plain (n ++ s) := by
  refine ⟨?_, by simp [hn, hs], ?_⟩
  · rintro e
    have h1 : s = [] := (List.append_eq_nil_iff.1 e).2
    rw [h1] at h; simp at h
  · intro e
    have := congrArg List.length e
    rw [List.length_append, List.length_singleton] at this
    omega

/-! ## Running steps -/

/-- Writing files into one folder. -/
def writes (f : Path) (l : List (Name × File)) : List Step := l.map fun x => .write (.ok (under f x.1)) x.2 .os

/-- The disk with some more files. -/
def put (f : Path) (d : Disk) (x : Name × File) : Disk :=
  { d with files := fun q => if q = under f x.1 then some x.2 else d.files q }

theorem under_parent (f : Path) (n : Name) : (under f n).parent = f := by
  simp [under, Path.parent]

theorem under_inj {f : Path} {a b : Name} (h : under f a = under f b) : a = b := by
  unfold under at h
  injection h with _ h
  simpa using h

theorem write_ok (d : Disk) (f : Path) (n : Name) (x : File) (hf : d.dirs f = true) (hn : d.dirs (under f n) = false) :
    d.write (under f n) x = .ok (put f d (n, x)) := by
  unfold Disk.write
  rw [under_parent, hf, hn]
  rfl

theorem performAll_append (d : Disk) (a b : List Step) : performAll d (a ++ b) =
    match performAll d a with
    | (d', .ok _) => performAll d' b
    | (d', .error e) => (d', .error e) := by
  induction a generalizing d with
  | nil => rfl
  | cons s a ih =>
    rw [List.cons_append, performAll, performAll]
    rcases s.perform d with ⟨d', o⟩
    cases o with
    | ok _ => exact ih d'
    | error e => rfl

theorem put_dirs (f : Path) (l : List (Name × File)) (d : Disk) : (l.foldl (put f) d).dirs = d.dirs := by
  induction l generalizing d with
  | nil => rfl
  | cons x l ih => rw [List.foldl_cons, ih]; rfl

/-- A step that writes a file into the folder. -/
def Writes (f : Path) (s : Step) (x : Name × File) : Prop := ∃ e, s = .write (.ok (under f x.1)) x.2 e

theorem performAll_writes (f : Path) (ss : List Step) (l : List (Name × File)) (d : Disk)
    (h : List.Forall₂ (Writes f) ss l) (hf : d.dirs f = true) (hn : ∀ x ∈ l, d.dirs (under f x.1) = false) :
    performAll d ss = (l.foldl (put f) d, .ok ()) := by
  induction h generalizing d with
  | nil => rfl
  | @cons s x ss l hs _ ih =>
    obtain ⟨e, rfl⟩ := hs
    rw [performAll]
    simp only [Step.perform, write_ok d f x.1 x.2 hf (hn x List.mem_cons_self)]
    exact ih _ hf fun y hy => hn y (List.mem_cons_of_mem _ hy)

theorem foldl_absent (f : Path) (l : List (Name × File)) (d : Disk) (q : Path) (h : ∀ x ∈ l, q ≠ under f x.1) :
    (l.foldl (put f) d).files q = d.files q := by
  induction l generalizing d with
  | nil => rfl
  | cons x l ih =>
    rw [List.foldl_cons, ih _ (fun y hy => h y (List.mem_cons_of_mem _ hy))]
    simp only [put]
    rw [if_neg (h x List.mem_cons_self)]

theorem foldl_present (f : Path) (l : List (Name × File)) (d : Disk) (hd : (l.map (·.1)).Nodup) (x : Name × File)
    (hx : x ∈ l) : (l.foldl (put f) d).files (under f x.1) = some x.2 := by
  induction l generalizing d with
  | nil => cases hx
  | cons y l ih =>
    rw [List.map_cons, List.nodup_cons] at hd
    rw [List.foldl_cons]
    rcases List.mem_cons.1 hx with rfl | hx
    · rw [foldl_absent]
      · simp [put]
      · intro z hz e
        exact hd.1 (under_inj e ▸ List.mem_map_of_mem hz)
    · exact ih _ hd.2 hx

/-! ## The names of a run are distinct -/

/-- Kinds of endings. -/
inductive End where
  | flow | table | itable | v3 | info | ijson | long | short
  deriving DecidableEq

/-- The text of an ending. -/
def End.text : End → Name
  | .flow => ".flow-diagram.json".toList
  | .table => ".csv".toList
  | .itable => "_intensity.csv".toList
  | .v3 => "_v3.json".toList
  | .info => "_run_info.json".toList
  | .ijson => "_intensity.json".toList
  | .long => ".ltp.tsv".toList
  | .short => ".stp.tsv".toList

/-- What is before the ending: the prefix, its base, or the prefix and the name of an installation. -/
def End.front (p b g : Name) : End → Name
  | .flow | .v3 | .info => p
  | .table | .itable | .ijson => b
  | .long | .short => p ++ '.' :: g

/-- The whole name. -/
def End.name (p b g : Name) (e : End) : Name := e.front p b g ++ e.text

theorem long_name (p b g : Name) : p ++ '.' :: (g ++ ".ltp.tsv".toList) = End.long.name p b g := by
  unfold End.name End.front End.text
  dsimp only
  generalize ".ltp.tsv".toList = z
  simp

theorem short_name (p b g : Name) : p ++ '.' :: (g ++ ".stp.tsv".toList) = End.short.name p b g := by
  unfold End.name End.front End.text
  dsimp only
  generalize ".stp.tsv".toList = z
  simp

theorem not_suffix (s t : End) (h : s ≠ t) (h1 : ¬ (s = .table ∧ t = .itable)) : ¬ s.text <:+ t.text := by
  cases s <;> cases t <;> first | exact absurd rfl h | exact absurd ⟨rfl, rfl⟩ h1 | decide +kernel

theorem name_inj {p b g q c g' : Name} {s t : End} (h : s.name p b g = t.name q c g') :
    (s = t ∧ s.front p b g = t.front q c g') ∨ (s = .table ∧ t = .itable ∧ b = c ++ "_intensity".toList) ∨
      (s = .itable ∧ t = .table ∧ c = b ++ "_intensity".toList) := by
  unfold End.name at h
  by_cases e : s = t
  · subst e
    exact .inl ⟨rfl, List.append_cancel_right h⟩
  by_cases h1 : s = .table ∧ t = .itable
  · obtain ⟨rfl, rfl⟩ := h1
    refine .inr (.inl ⟨rfl, rfl, ?_⟩)
    have : b ++ ".csv".toList = (c ++ "_intensity".toList) ++ ".csv".toList := by
      rw [List.append_assoc]; exact h
    exact List.append_cancel_right this
  by_cases h2 : t = .table ∧ s = .itable
  · obtain ⟨rfl, rfl⟩ := h2
    refine .inr (.inr ⟨rfl, rfl, ?_⟩)
    have : c ++ ".csv".toList = (b ++ "_intensity".toList) ++ ".csv".toList := by
      rw [List.append_assoc]; exact h.symm
    exact List.append_cancel_right this
  exfalso
  have a1 : s.text <:+ t.front q c g' ++ t.text := ⟨_, h⟩
  have a2 : t.text <:+ t.front q c g' ++ t.text := ⟨_, rfl⟩
  rcases List.suffix_or_suffix_of_suffix a1 a2 with hh | hh
  · exact not_suffix s t e h1 hh
  · exact not_suffix t s (fun e' => e e'.symm) h2 hh

/-- Every file wanted has an ending; the kind of the file tells which, and of which installation. -/
theorem wanted_mem {o : Opts} {id : ℕ} {p b : Name} {gs : List Name} {x : Name × File} (h : x ∈ wanted o id p b gs) :
    ∃ e : End, ∃ g, x.1 = e.name p b g ∧ ((e = .long ∨ e = .short) → g ∈ gs) := by
  unfold wanted at h
  simp only [List.mem_append] at h
  rcases h with (((h | h) | h) | h) | h
  · split at h
    · simp only [List.mem_singleton] at h; subst h; exact ⟨.flow, [], rfl, by simp⟩
    · cases h
  · split at h
    · simp only [List.mem_cons, List.not_mem_nil, or_false] at h
      rcases h with rfl | rfl
      · exact ⟨.table, [], rfl, by simp⟩
      · exact ⟨.itable, [], rfl, by simp⟩
    · cases h
  · split at h
    · simp only [List.mem_cons, List.not_mem_nil, or_false] at h
      rcases h with rfl | rfl | rfl
      · exact ⟨.v3, [], rfl, by simp⟩
      · exact ⟨.info, [], rfl, by simp⟩
      · exact ⟨.ijson, [], rfl, by simp⟩
    · cases h
  · split at h
    · obtain ⟨g, hg, rfl⟩ := List.mem_map.1 h
      exact ⟨.long, g, long_name p b g, fun _ => hg⟩
    · cases h
  · split at h
    · obtain ⟨g, hg, rfl⟩ := List.mem_map.1 h
      exact ⟨.short, g, short_name p b g, fun _ => hg⟩
    · cases h

theorem name_ne {p b g g' : Name} {s t : End} (h : s ≠ t) : s.name p b g ≠ t.name p b g' := by
  intro e
  rcases name_inj e with ⟨h', _⟩ | ⟨_, _, h'⟩ | ⟨_, _, h'⟩
  · exact h h'
  · have := congrArg List.length h'; simp at this
  · have := congrArg List.length h'; simp at this

theorem wanted_nodup (o : Opts) (id : ℕ) (p b : Name) (gs : List Name) (hg : gs.Nodup) :
    ((wanted o id p b gs).map (·.1)).Nodup := by
  have hlong : (gs.map fun g => End.long.name p b g).Nodup := by
    refine List.Nodup.map (fun a b h => ?_) hg
    rcases name_inj h with ⟨_, h'⟩ | ⟨h', _⟩ | ⟨h', _⟩
    · simpa [End.front] using h'
    · cases h'
    · cases h'
  have hshort : (gs.map fun g => End.short.name p b g).Nodup := by
    refine List.Nodup.map (fun a b h => ?_) hg
    rcases name_inj h with ⟨_, h'⟩ | ⟨h', _⟩ | ⟨h', _⟩
    · simpa [End.front] using h'
    · cases h'
    · cases h'
  have heq : (wanted o id p b gs).map (·.1) =
      (if o.flow then [End.flow.name p b []] else []) ++
      (if o.csv then [End.table.name p b [], End.itable.name p b []] else []) ++
      (if o.json then [End.v3.name p b [], End.info.name p b [], End.ijson.name p b []] else []) ++
      (if o.ltp then gs.map fun g => End.long.name p b g else []) ++
      (if o.stp then gs.map fun g => End.short.name p b g else []) := by
    have ite_map : ∀ (c : Bool) (l : List (Name × File)),
        (if c then l else []).map (·.1) = if c then l.map (·.1) else [] := by
      intro c l; cases c <;> rfl
    unfold wanted
    rw [List.map_append, List.map_append, List.map_append, List.map_append, ite_map, ite_map, ite_map, ite_map, ite_map,
      List.map_map, List.map_map]
    have e1 : ((fun x : Name × File => x.1) ∘ fun g => (p ++ '.' :: (g ++ ".ltp.tsv".toList), (⟨id, .long g⟩ : File))) =
        fun g => End.long.name p b g := funext fun g => long_name p b g
    have e2 : ((fun x : Name × File => x.1) ∘ fun g => (p ++ '.' :: (g ++ ".stp.tsv".toList), (⟨id, .short g⟩ : File))) =
        fun g => End.short.name p b g := funext fun g => short_name p b g
    rw [e1, e2]
    rfl
  rw [heq]
  have part : ∀ (c : Bool) (l : List Name), l.Nodup → (if c then l else []).Nodup := by
    intro c l h; cases c <;> simp [h]
  have pm : ∀ {c : Bool} {l : List Name} {x}, x ∈ (if c then l else []) → x ∈ l := by
    intro c l x h; cases c <;> simp_all
  refine List.nodup_append.2 ⟨List.nodup_append.2 ⟨List.nodup_append.2 ⟨List.nodup_append.2 ⟨part _ _ ?_, part _ _ ?_, ?_⟩,
    part _ _ ?_, ?_⟩, part _ _ hlong, ?_⟩, part _ _ hshort, ?_⟩
  · simp
  · simp [name_ne (p := p) (b := b) (g := []) (g' := []) (show End.table ≠ .itable by decide)]
  · intro a ha c hc
    have ha := pm ha; have hc := pm hc
    simp only [List.mem_cons, List.not_mem_nil, or_false] at ha hc
    subst ha
    rcases hc with rfl | rfl <;> exact name_ne (by decide)
  · simp [name_ne (p := p) (b := b) (g := []) (g' := []) (show End.v3 ≠ .info by decide),
      name_ne (p := p) (b := b) (g := []) (g' := []) (show End.v3 ≠ .ijson by decide),
      name_ne (p := p) (b := b) (g := []) (g' := []) (show End.info ≠ .ijson by decide)]
  · intro a ha c hc
    have hc := pm hc
    rcases List.mem_append.1 ha with ha | ha <;> have ha := pm ha <;>
      simp only [List.mem_cons, List.not_mem_nil, or_false] at ha hc <;>
      (first | rcases ha with rfl | rfl | skip) <;> rcases hc with rfl | rfl | rfl <;>
      exact name_ne (by decide)
  · intro a ha c hc
    obtain ⟨g, _, rfl⟩ := List.mem_map.1 (pm hc)
    simp only [List.mem_append] at ha
    rcases ha with (ha | ha) | ha <;> have ha := pm ha <;>
      simp only [List.mem_cons, List.not_mem_nil, or_false] at ha
    · subst ha; exact name_ne (by decide)
    · rcases ha with rfl | rfl <;> exact name_ne (by decide)
    · rcases ha with rfl | rfl | rfl <;> exact name_ne (by decide)
  · intro a ha c hc
    obtain ⟨g, _, rfl⟩ := List.mem_map.1 (pm hc)
    simp only [List.mem_append] at ha
    rcases ha with ((ha | ha) | ha) | ha <;> have ha := pm ha
    · simp only [List.mem_cons, List.not_mem_nil, or_false] at ha
      subst ha; exact name_ne (by decide)
    · simp only [List.mem_cons, List.not_mem_nil, or_false] at ha
      rcases ha with rfl | rfl <;> exact name_ne (by decide)
    · simp only [List.mem_cons, List.not_mem_nil, or_false] at ha
      rcases ha with rfl | rfl | rfl <;> exact name_ne (by decide)
    · obtain ⟨g', _, rfl⟩ := List.mem_map.1 ha
      exact name_ne (by decide)

/-! ## A run -/

theorem withName_under (f : Path) (n m : Name) : (under f n).withName m = .ok (under f m) := by
  unfold Path.withName under
  rw [if_neg (by simp)]
  simp

theorem name_under (f : Path) (n : Name) : (under f n).name = n := by
  simp [under, Path.name]

theorem text_slash (e : End) : '/' ∉ e.text := by cases e <;> decide +kernel

theorem text_long (e : End) : 2 ≤ e.text.length := by cases e <;> decide +kernel

theorem name_plain {p b g : Name} (e : End) (hp : '/' ∉ p) (hb : '/' ∉ b) (hg : '/' ∉ g) : Plain (e.name p b g) := by
  refine plain_append ?_ (text_slash e) (text_long e)
  cases e <;> simp [End.front, hp, hb, hg]

/-- The disk once the arguments are checked. -/
def ready (f : Path) (d : Disk) : Disk :=
  if d.dirs f then d else { d with dirs := fun q => if q = f then true else d.dirs q }

theorem under_ne (f : Path) (n : Name) : under f n ≠ f := by
  intro h
  have := congrArg (fun q => q.parts.length) h
  simp [under] at this

theorem ready_dir (f : Path) (d : Disk) : (ready f d).dirs f = true := by
  unfold ready
  split
  · assumption
  · simp

theorem ready_files (f : Path) (d : Disk) : (ready f d).files = d.files := by
  unfold ready
  split <;> rfl

theorem ready_under (f : Path) (d : Disk) (n : Name) : (ready f d).dirs (under f n) = d.dirs (under f n) := by
  unfold ready
  split
  · rfl
  · simp [under_ne]

theorem ready_dirs (f : Path) (d : Disk) (q : Path) : (ready f d).dirs q = true ↔ q = f ∨ d.dirs q = true := by
  unfold ready
  split
  · rename_i h
    constructor
    · exact .inr
    · rintro (rfl | h') <;> assumption
  · by_cases hq : q = f <;> simp [hq]

theorem arguments_ok {o : Opts} {j : Job} {d : Disk} {gs : List Name} (h : Good o j d gs) :
    validateArguments o.model o.folder d = (ready o.folder d, .ok ()) := by
  unfold validateArguments ready
  have h1 : d.isFile o.model = true := by
    unfold Disk.isFile
    exact Option.isSome_iff_ne_none.2 h.model
  rw [h1, h.parent]
  by_cases hd : d.dirs o.folder = true
  · simp [hd]
  · have hf := h.free.resolve_left hd
    have h2 : d.isFile o.folder = false := by simp [Disk.isFile, hf]
    have hd' : d.dirs o.folder = false := by simpa using hd
    simp [hd', h2]

theorem forall₂_ite {α β : Type} {R : α → β → Prop} {c : Bool} {l : List α} {m : List β} (h : List.Forall₂ R l m) :
    List.Forall₂ R (if c then l else []) (if c then m else []) := by
  cases c
  · exact .nil
  · exact h

theorem flow_writes (o : Opts) (j : Job) (hp : Plain o.pre) : List.Forall₂ (Writes o.folder)
    (flowSteps o j) [(o.pre ++ ".flow-diagram.json".toList, ⟨j.id, .diagram⟩)] := by
  unfold flowSteps
  have hx : Plain (o.pre ++ ".flow-diagram.json".toList) :=
    name_plain (b := []) (g := []) .flow hp.2.1 (by simp) (by simp)
  rw [if_pos hp.1, join_plain _ hx]
  exact .cons ⟨_, rfl⟩ .nil

theorem prefix_under (o : Opts) (hp : Plain o.pre) : o.outputPrefix = under o.folder o.pre := join_plain _ hp

theorem csv_writes (o : Opts) (j : Job) (b : Name) (hp : Plain o.pre) (hb : Base o.pre b) :
    List.Forall₂ (Writes o.folder) (csvSteps o j)
      [(b ++ ".csv".toList, ⟨j.id, .table⟩), (b ++ "_intensity.csv".toList, ⟨j.id, .intensityTable⟩)] := by
  unfold csvSteps Path.withSuffix
  rw [prefix_under o hp, name_under, withName_under, withName_under, ← base_unique hb (stem_base _)]
  exact .cons ⟨_, rfl⟩ (.cons ⟨_, rfl⟩ .nil)

theorem json_writes (o : Opts) (j : Job) (b : Name) (hp : Plain o.pre) (hb : Base o.pre b) :
    List.Forall₂ (Writes o.folder) (jsonSteps o j)
      [(o.pre ++ "_v3.json".toList, ⟨j.id, .result (!o.detailed)⟩), (o.pre ++ "_run_info.json".toList, ⟨j.id, .runInfo⟩),
        (b ++ "_intensity.json".toList, ⟨j.id, .intensity⟩)] := by
  unfold jsonSteps
  have h1 : Plain (o.pre ++ "_v3.json".toList) := name_plain (b := []) (g := []) .v3 hp.2.1 (by simp) (by simp)
  have h2 : Plain (o.pre ++ "_run_info.json".toList) := name_plain (b := []) (g := []) .info hp.2.1 (by simp) (by simp)
  rw [prefix_under o hp, name_under, withName_under, ← base_unique hb (stem_base _), join_plain _ h1, join_plain _ h2]
  exact .cons ⟨_, rfl⟩ (.cons ⟨_, rfl⟩ (.cons ⟨_, rfl⟩ .nil))

theorem export_writes (o : Opts) (e : End) (suffix : Name) (file : Name → File) (gs : List Name) (hp : Plain o.pre)
    (hg : ∀ g ∈ gs, '/' ∉ g) (he : suffix ++ ".tsv".toList = e.text) (hl : e = .long ∨ e = .short) :
    List.Forall₂ (Writes o.folder) (exportSteps o suffix file (.ok gs))
      (gs.map fun g => (o.pre ++ '.' :: (g ++ e.text), file g)) := by
  unfold exportSteps
  dsimp only
  rw [he]
  have hn : ∀ g, o.pre ++ '.' :: (g ++ e.text) = e.name o.pre [] g := by
    intro g
    rcases hl with rfl | rfl
    · exact long_name _ _ _
    · exact short_name _ _ _
  induction gs with
  | nil => exact .nil
  | cons g gs ih =>
    rw [List.map_cons, List.map_cons]
    refine .cons ⟨.os, ?_⟩ (ih fun g hgs => hg g (List.mem_cons_of_mem _ hgs))
    rw [join_plain]
    rw [hn]
    exact name_plain e hp.2.1 (by simp) (hg g List.mem_cons_self)

theorem run_good (o : Opts) (j : Job) (d : Disk) (gs : List Name) (b : Name) (h : Good o j d gs) (hp : Plain o.pre)
    (hb : Base o.pre b) :
    run o j d = ((wanted o j.id o.pre b gs).foldl (put o.folder) (ready o.folder d), .ok ()) := by
  unfold run plan wanted
  rw [h.loaded, h.evaluated, h.long, h.short]
  have hflow := forall₂_ite (c := o.flow) (flow_writes o j hp)
  have hrest := List.rel_append (forall₂_ite (c := o.csv) (csv_writes o j b hp hb))
    (List.rel_append (forall₂_ite (c := o.json) (json_writes o j b hp hb))
    (List.rel_append (forall₂_ite (c := o.ltp) (export_writes o .long ".ltp".toList (fun g => ⟨j.id, .long g⟩) gs hp
      h.slash rfl (.inl rfl)))
    (forall₂_ite (c := o.stp) (export_writes o .short ".stp".toList (fun g => ⟨j.id, .short g⟩) gs hp
      h.slash rfl (.inr rfl)))))
  simp only [List.append_assoc] at hrest ⊢
  generalize (if o.flow then flowSteps o j else []) = s1 at *
  rw [show ∀ x y : Step, ∀ l, [x, y] ++ l = x :: y :: l from fun _ _ _ => rfl, performAll]
  simp only [Step.perform, arguments_ok h]
  rw [performAll]
  simp only [Step.perform]
  rw [performAll_append, performAll_writes o.folder _ _ _ hflow (ready_dir _ _)
    (fun x _ => (ready_under _ _ _).trans (h.clear _))]
  dsimp only
  rw [List.singleton_append, performAll]
  simp only [Step.perform]
  rw [performAll_writes o.folder _ _ _ hrest (by rw [put_dirs]; exact ready_dir _ _)
    (fun x _ => by rw [put_dirs]; exact (ready_under _ _ _).trans (h.clear _)), ← List.foldl_append]
  rfl

/-! ## The theorems -/

/-- **C107.** A run that can succeed does, and writes exactly the files asked for, each with its own content, into the
output folder; no other file is touched, and no folder is made but the output folder. -/
theorem C107_files (o : Opts) (j : Job) (d : Disk) (gs : List Name) (b : Name) (h : Good o j d gs) (hp : Plain o.pre)
    (hb : Base o.pre b) :
    (run o j d).2 = .ok () ∧
    (∀ x ∈ wanted o j.id o.pre b gs, (run o j d).1.files (under o.folder x.1) = some x.2) ∧
    (∀ q, (∀ x ∈ wanted o j.id o.pre b gs, q ≠ under o.folder x.1) → (run o j d).1.files q = d.files q) ∧
    (∀ q, (run o j d).1.dirs q = true ↔ q = o.folder ∨ d.dirs q = true) := by
  rw [run_good o j d gs b h hp hb]
  refine ⟨rfl, fun x hx => foldl_present _ _ _ (wanted_nodup _ _ _ _ _ h.groups) x hx, fun q hq => ?_, fun q => ?_⟩
  · rw [foldl_absent _ _ _ _ hq, ready_files]
  · dsimp only
    rw [put_dirs, ready_dirs]

/-- **C107.** Without options, the folder is `output` beside the model, and the prefix is the name of the model without
its extension; with them, they are as given. -/
theorem C107_defaults (o : Opts) (abs : Bool) (dir : List Name) (n : Name) (hm : o.model = ⟨abs, dir ++ [n]⟩) :
    (o.folder? = none → o.folder = ⟨abs, dir ++ ["output".toList]⟩) ∧ (o.prefix? = none → Base n o.pre) ∧
    (∀ f, o.folder? = some f → o.folder = f) ∧ (∀ p, o.prefix? = some p → o.pre = p) := by
  refine ⟨?_, ?_, fun f hf => by unfold Opts.folder; rw [hf], fun p hp => by unfold Opts.pre; rw [hp]⟩
  · intro hf
    unfold Opts.folder
    rw [hf]
    dsimp only
    rw [join_plain _ (⟨by decide, by decide, by decide⟩ : Plain "output".toList), hm]
    simp [under, Path.parent]
  · intro hp
    unfold Opts.pre
    rw [hp, hm]
    dsimp only
    have : (Path.mk abs (dir ++ [n])).name = n := name_under ⟨abs, dir⟩ n
    rw [this]
    exact stem_base n

/-! ### Whatever happens -/

/-- A step that does not write a path. -/
def Spares (q : Path) (s : Step) : Prop := ∀ p f e, s = .write (.ok p) f e → p ≠ q

theorem perform_spares {q : Path} {s : Step} (h : Spares q s) (d : Disk) : (s.perform d).1.files q = d.files q := by
  cases s with
  | arguments m f =>
    simp only [Step.perform, validateArguments]
    split
    · rfl
    · split
      · rfl
      · split
        · rfl
        · split <;> rfl
  | part o => rfl
  | write p f e =>
    cases p with
    | error e => rfl
    | ok p =>
      have hp := h p f e rfl
      simp only [Step.perform]
      cases hw : d.write p f with
      | error e => rfl
      | ok d' =>
        unfold Disk.write at hw
        split at hw
        · cases hw
        · have := Except.ok.inj hw
          subst this
          dsimp only
          rw [if_neg (Ne.symm hp)]

theorem performAll_spares {q : Path} {ss : List Step} (h : ∀ s ∈ ss, Spares q s) (d : Disk) :
    (performAll d ss).1.files q = d.files q := by
  induction ss generalizing d with
  | nil => rfl
  | cons s ss ih =>
    rw [performAll]
    have h1 := perform_spares (h s List.mem_cons_self) d
    rcases hs : s.perform d with ⟨d', o⟩
    rw [hs] at h1
    cases o with
    | ok _ => exact (ih (fun s hs => h s (List.mem_cons_of_mem _ hs)) d').trans h1
    | error e => exact h1

theorem writes_spares {f q : Path} {ss : List Step} {l : List (Name × File)} (h : List.Forall₂ (Writes f) ss l)
    (hq : ∀ x ∈ l, q ≠ under f x.1) : ∀ s ∈ ss, Spares q s := by
  induction h with
  | nil => intro s hs; cases hs
  | @cons s x ss l hs _ ih =>
    intro s' hs'
    rcases List.mem_cons.1 hs' with rfl | hs'
    · obtain ⟨e, rfl⟩ := hs
      intro p f e he
      cases he
      exact (hq x List.mem_cons_self).symm
    · exact ih (fun x hx => hq x (List.mem_cons_of_mem _ hx)) s' hs'

theorem part_spares (q : Path) (o : Except Err Unit) : Spares q (.part o) := by intro p f e h; cases h

theorem arguments_spares (q m f : Path) : Spares q (.arguments m f) := by intro p f e h; cases h

theorem ite_spares {q : Path} {c : Bool} {l : List Step} (h : ∀ s ∈ l, Spares q s) :
    ∀ s ∈ (if c then l else []), Spares q s := by
  cases c
  · intro s hs; cases hs
  · exact h

/-- **C107.** Whatever happens, succeeding or failing anywhere, no path is changed but those of the files asked for. -/
theorem C107_untouched (o : Opts) (j : Job) (d : Disk) (gs : List Name) (b : Name) (hp : Plain o.pre) (hb : Base o.pre b)
    (hl : j.long = .ok gs ∨ ∃ e, j.long = .error e) (hs : j.short = .ok gs ∨ ∃ e, j.short = .error e)
    (hg : ∀ g ∈ gs, '/' ∉ g) (q : Path) (hq : ∀ x ∈ wanted o j.id o.pre b gs, q ≠ under o.folder x.1) :
    (run o j d).1.files q = d.files q := by
  unfold run
  refine performAll_spares ?_ d
  unfold plan
  unfold wanted at hq
  simp only [List.mem_append] at hq ⊢
  have exp : ∀ (c : Bool) (e : End) (suffix : Name) (file : Name → File) (r : Except Err (List Name)),
      (r = .ok gs ∨ ∃ e, r = .error e) → suffix ++ ".tsv".toList = e.text → (e = .long ∨ e = .short) →
      (∀ x ∈ (if c then gs.map fun g => (o.pre ++ '.' :: (g ++ e.text), file g) else []), q ≠ under o.folder x.1) →
      ∀ s ∈ (if c then exportSteps o suffix file r else []), Spares q s := by
    intro c e suffix file r hr he hl' hx
    cases c
    · intro s hs; cases hs
    · rcases hr with rfl | ⟨e', rfl⟩
      · exact writes_spares (export_writes o e suffix file gs hp hg he hl') hx
      · intro s hs
        simp only [if_true, exportSteps, List.mem_singleton] at hs
        subst hs
        exact part_spares _ _
  rintro s ((((((hs' | hs') | hs') | hs') | hs') | hs') | hs')
  · simp only [List.mem_cons, List.not_mem_nil, or_false] at hs'
    rcases hs' with rfl | rfl
    · exact arguments_spares _ _ _
    · exact part_spares _ _
  · exact writes_spares (forall₂_ite (flow_writes o j hp)) (fun x hx => hq x (by simp only [hx, true_or])) s hs'
  · simp only [List.mem_singleton] at hs'
    subst hs'
    exact part_spares _ _
  · exact writes_spares (forall₂_ite (csv_writes o j b hp hb)) (fun x hx => hq x (by simp only [hx, true_or, or_true])) s hs'
  · exact writes_spares (forall₂_ite (json_writes o j b hp hb)) (fun x hx => hq x (by simp only [hx, true_or, or_true])) s hs'
  · exact exp o.ltp .long _ _ _ hl rfl (.inl rfl) (fun x hx => hq x (.inl (.inr hx))) s hs'
  · exact exp o.stp .short _ _ _ hs rfl (.inr rfl) (fun x hx => hq x (.inr hx)) s hs'

theorem performAll_stop (d : Disk) (a b : List Step) (e : Err) :
    performAll d (a ++ .part (.error e) :: b) = performAll d (a ++ [.part (.error e)]) := by
  rw [performAll_append, performAll_append]
  rcases performAll d a with ⟨d', o⟩
  cases o <;> rfl

theorem performAll_fails (d : Disk) (a : List Step) (e : Err) : ∃ e', (performAll d (a ++ [.part (.error e)])).2 = .error e' := by
  rw [performAll_append]
  rcases performAll d a with ⟨d', o⟩
  cases o with
  | ok _ => exact ⟨e, rfl⟩
  | error e' => exact ⟨e', rfl⟩

/-- **C107.** A run of a model that is invalid fails and writes nothing. -/
theorem C107_invalid (o : Opts) (j : Job) (d : Disk) (e : Err) (h : j.loaded = .error e) :
    (∃ e', (run o j d).2 = .error e') ∧ ∀ q, (run o j d).1.files q = d.files q := by
  have key : run o j d = performAll d ([.arguments o.model o.folder] ++ [.part (.error e)]) := by
    unfold run plan
    rw [h]
    simp only [List.append_assoc, List.cons_append, List.nil_append]
    exact performAll_stop d [.arguments o.model o.folder] _ e
  rw [key]
  refine ⟨performAll_fails _ _ _, fun q => performAll_spares ?_ d⟩
  simp only [List.cons_append, List.nil_append, List.mem_cons, List.not_mem_nil, or_false]
  rintro s (rfl | rfl)
  · exact arguments_spares _ _ _
  · exact part_spares _ _

/-- **C107.** A run whose evaluation fails leaves at most the flow diagram. -/
theorem C107_failed (o : Opts) (j : Job) (d : Disk) (e : Err) (h : j.evaluated = .error e) (hp : Plain o.pre) :
    (∃ e', (run o j d).2 = .error e') ∧
    ∀ q, (o.flow = true → q ≠ under o.folder (o.pre ++ ".flow-diagram.json".toList)) →
      (run o j d).1.files q = d.files q := by
  have key : run o j d = performAll d (([.arguments o.model o.folder, .part j.loaded] ++
      (if o.flow then flowSteps o j else [])) ++ [.part (.error e)]) := by
    unfold run plan
    rw [h]
    generalize [Step.arguments o.model o.folder, .part j.loaded] ++ (if o.flow then flowSteps o j else []) = a
    simp only [List.append_assoc, List.cons_append, List.nil_append]
    exact performAll_stop d a _ e
  rw [key]
  refine ⟨performAll_fails _ _ _, fun q hq => performAll_spares ?_ d⟩
  simp only [List.mem_append]
  rintro s ((hs | hs) | hs)
  · simp only [List.mem_cons, List.not_mem_nil, or_false] at hs
    rcases hs with rfl | rfl
    · exact arguments_spares _ _ _
    · exact part_spares _ _
  · cases hfl : o.flow with
    | false => rw [hfl] at hs; cases hs
    | true =>
      rw [hfl] at hs
      exact writes_spares (flow_writes o j hp) (by simpa using hq hfl) s hs
  · simp only [List.mem_singleton] at hs
    subst hs
    exact part_spares _ _

/-- **C107.** A run without any output asked for writes nothing. -/
theorem C107_quiet (o : Opts) (j : Job) (d : Disk) (h1 : o.csv = false) (h2 : o.json = false) (h3 : o.ltp = false)
    (h4 : o.stp = false) (h5 : o.flow = false) (q : Path) : (run o j d).1.files q = d.files q := by
  unfold run plan
  rw [h1, h2, h3, h4, h5]
  refine performAll_spares ?_ d
  simp only [Bool.false_eq_true, if_false, List.append_nil, List.mem_append, List.mem_cons, List.not_mem_nil, or_false]
  rintro s ((rfl | rfl) | rfl)
  · exact arguments_spares _ _ _
  · exact part_spares _ _
  · exact part_spares _ _

/-! ### Several runs -/

theorem base_dotless {p : Name} (h : '.' ∉ p) : Base p p :=
  .inr ⟨rfl, fun a e hp _ => absurd (by rw [hp]; simp) h⟩

theorem before_dot {p q g g' : Name} (hp : '.' ∉ p) (hq : '.' ∉ q) (h : p ++ '.' :: g = q ++ '.' :: g') : p = q := by
  rcases List.append_eq_append_iff.1 h with ⟨w, rfl, hw⟩ | ⟨w, rfl, hw⟩
  · cases w with
    | nil => simp
    | cons y w =>
      rw [List.cons_append] at hw
      injection hw with hw _
      subst hw
      exact absurd (by simp) hq
  · cases w with
    | nil => simp
    | cons y w =>
      rw [List.cons_append] at hw
      injection hw with hw _
      subst hw
      exact absurd (by simp) hp

/-- **C107.** Runs with different prefixes without dots leave each other's files alone, even in one folder, unless one
prefix is the other followed by `_intensity`. -/
theorem C107_second (o o' : Opts) (j j' : Job) (d : Disk) (gs gs' : List Name) (h : Good o j d gs)
    (h' : Good o' j' (run o j d).1 gs') (hp : Plain o.pre) (hp' : Plain o'.pre) (hd : '.' ∉ o.pre) (hd' : '.' ∉ o'.pre)
    (hne : o.pre ≠ o'.pre) (h1 : o.pre ≠ o'.pre ++ "_intensity".toList) (h2 : o'.pre ≠ o.pre ++ "_intensity".toList) :
    ∀ x ∈ wanted o j.id o.pre o.pre gs, (run o' j' (run o j d).1).1.files (under o.folder x.1) = some x.2 := by
  intro x hx
  have hfirst := (C107_files o j d gs _ h hp (base_dotless hd)).2.1 x hx
  rw [(C107_files o' j' _ gs' _ h' hp' (base_dotless hd')).2.2.1 _ ?_]
  · exact hfirst
  intro y hy e
  have hf : o.folder = o'.folder := by
    have := congrArg Path.parent e
    rwa [under_parent, under_parent] at this
  rw [hf] at e
  have e := under_inj e
  obtain ⟨s, g, hs, -⟩ := wanted_mem hx
  obtain ⟨t, g', ht, -⟩ := wanted_mem hy
  rw [hs, ht] at e
  rcases name_inj e with ⟨rfl, hfr⟩ | ⟨_, _, hfr⟩ | ⟨_, _, hfr⟩
  · cases s <;> simp only [End.front] at hfr <;> first | exact hne hfr | exact hne (before_dot hd hd' hfr)
  · exact h1 hfr
  · exact h2 hfr

/-- **C107, finding.** Of runs with prefixes (or models) that differ only after a dot, such as `base.low` and
`base.high`, the second overwrites the tables of the first. -/
theorem C107_dotted (o o' : Opts) (j j' : Job) (d : Disk) (gs gs' : List Name) (a e e' : Name) (ha : a ≠ [])
    (hsl : '/' ∉ a ∧ '/' ∉ e ∧ '/' ∉ e') (he : e ≠ [] ∧ '.' ∉ e) (he' : e' ≠ [] ∧ '.' ∉ e')
    (hpre : o.pre = a ++ '.' :: e) (hpre' : o'.pre = a ++ '.' :: e') (hf : o.folder = o'.folder) (hc : o.csv = true)
    (hc' : o'.csv = true) (h : Good o j d gs) (h' : Good o' j' (run o j d).1 gs') :
    (run o j d).1.files (under o.folder (a ++ ".csv".toList)) = some ⟨j.id, .table⟩ ∧
    (run o' j' (run o j d).1).1.files (under o.folder (a ++ ".csv".toList)) = some ⟨j'.id, .table⟩ := by
  have plain : ∀ x : Name, '/' ∉ x → Plain (a ++ '.' :: x) := by
    intro x hx
    refine ⟨by simp, by simp [hsl.1, hx], ?_⟩
    intro hh
    cases a with
    | nil => exact ha rfl
    | cons c a => simp at hh
  have mem : ∀ (o : Opts) (id : ℕ) (p : Name) (gs : List Name), o.csv = true →
      (a ++ ".csv".toList, (⟨id, .table⟩ : File)) ∈ wanted o id p a gs := by
    intro o id p gs hc
    unfold wanted
    rw [hc]
    simp only [List.mem_append, if_true, List.mem_cons, true_or, or_true]
  constructor
  · exact (C107_files o j d gs a h (hpre ▸ plain e hsl.2.1) (hpre ▸ .inl ⟨ha, e, he.1, he.2, rfl⟩)).2.1 _ (mem o _ _ _ hc)
  · rw [hf]
    exact (C107_files o' j' _ gs' a h' (hpre' ▸ plain e' hsl.2.2) (hpre' ▸ .inl ⟨ha, e', he'.1, he'.2, rfl⟩)).2.1 _
      (mem o' _ _ _ hc')

/-- **C107.** The process ends with status 0 exactly if the run succeeded or failed with an error of eCalc — so that
(finding) the status of a run of an invalid model is that of a success. -/
theorem C107_status (o : Opts) (j : Job) (d : Disk) :
    (status (run o j d).2 = 0 ↔ (run o j d).2 = .ok () ∨ (run o j d).2 = .error .ecalc) ∧
    (d.files o.model ≠ none → d.dirs o.folder.parent = true → d.dirs o.folder = true → j.loaded = .error .ecalc →
      status (run o j d).2 = 0) := by
  constructor
  · rcases (run o j d).2 with e | u
    · cases e <;> simp [status]
    · simp [status]
  · intro hm hpar hfo hl
    have : (run o j d).2 = .error .ecalc := by
      unfold run plan
      simp only [List.append_assoc, List.cons_append, List.nil_append, performAll, Step.perform, validateArguments,
        Disk.isFile, Option.isSome_iff_ne_none.2 hm, hpar, hfo, hl]
      rfl
    rw [this]
    rfl

/-- **C107.** Without a model, or a folder to put the output folder in, the run is refused with a message of the command
line, and the disk is as before: folders above the output folder are not made. -/
theorem C107_refused (o : Opts) (j : Job) (d : Disk) (h : d.files o.model = none ∨ d.dirs o.folder.parent = false) :
    run o j d = (d, .error .cli) := by
  have : validateArguments o.model o.folder d = (d, .error .cli) := by
    unfold validateArguments Disk.isFile
    rcases h with h | h
    · rw [h]; rfl
    · cases hm : (d.files o.model).isSome
      · rfl
      · rw [h]; rfl
  unfold run plan
  simp only [List.append_assoc, List.cons_append, List.nil_append, performAll, Step.perform, this]

/-- **C107.** A flow diagram that cannot be written is reported as an error of the command line. -/
theorem C107_diagram (o : Opts) (j : Job) (d : Disk) (hm : d.files o.model ≠ none) (hpar : d.dirs o.folder.parent = true)
    (hfo : d.dirs o.folder = true) (hl : j.loaded = .ok ()) (hflow : o.flow = true) (hp : Plain o.pre)
    (hd : d.dirs (under o.folder (o.pre ++ ".flow-diagram.json".toList)) = true) :
    run o j d = (d, .error .cli) := by
  have hplain : Plain (o.pre ++ ".flow-diagram.json".toList) := plain_append hp.2.1 (by decide) (by decide)
  have hargs : (Step.arguments o.model o.folder).perform d = (d, .ok ()) := by
    show validateArguments o.model o.folder d = _
    unfold validateArguments Disk.isFile
    rw [Option.isSome_iff_ne_none.2 hm, hpar, hfo]
    rfl
  have hwrite : ∀ p, d.dirs p = true → (Step.write (.ok p) ⟨j.id, .diagram⟩ .cli).perform d = (d, .error .cli) := by
    intro p hp
    simp only [Step.perform, Disk.write, hp, Bool.or_true, if_true]
  have hsteps : flowSteps o j =
      [.write (.ok (under o.folder (o.pre ++ ".flow-diagram.json".toList))) ⟨j.id, .diagram⟩ .cli] := by
    unfold flowSteps
    rw [if_pos hp.1, join_plain _ hplain]
  generalize ".flow-diagram.json".toList = end_ at *
  unfold run plan
  rw [hflow, if_pos rfl, hsteps, hl]
  simp only [List.append_assoc, List.cons_append, List.nil_append]
  rw [performAll, hargs]
  dsimp only
  rw [performAll]
  show performAll d (Step.write _ _ _ :: _) = _
  rw [performAll, hwrite _ hd]

/-- **C107.** A prefix that begins with the current folder, `./`, is the prefix without it. -/
theorem C107_dot (o : Opts) (j : Job) (d : Disk) (n : Name) (hn : n ≠ []) (hs : n.head? ≠ some '/') :
    run { o with prefix? := some ('.' :: '/' :: n) } j d = run { o with prefix? := some n } j d := by
  have hj : ∀ (f : Path) (x : Name), f.join ('.' :: '/' :: (n ++ x)) = f.join (n ++ x) := by
    intro f x
    apply join_dot
    cases n with
    | nil => exact absurd rfl hn
    | cons c n => simpa using hs
  have hp : ∀ f : Path, f.join ('.' :: '/' :: n) = f.join n := fun f => join_dot f n hs
  have hf : ∀ p : Name, Opts.folder { o with prefix? := some p } = o.folder := fun p => rfl
  have hq : ∀ p : Name, Opts.pre { o with prefix? := some p } = p := fun p => rfl
  have ho : Opts.outputPrefix { o with prefix? := some ('.' :: '/' :: n) } = Opts.outputPrefix { o with prefix? := some n } := by
    unfold Opts.outputPrefix
    rw [hq, hq, hf, hf]; exact hp _
  have he : ∀ (s : Name) (file : Name → File) (gs : Except Err (List Name)),
      exportSteps { o with prefix? := some ('.' :: '/' :: n) } s file gs =
        exportSteps { o with prefix? := some n } s file gs := by
    intro s file gs
    cases gs with
    | error e => rfl
    | ok gs =>
      unfold exportSteps
      dsimp only
      apply List.map_congr_left
      intro g _
      rw [hf, hf, hq, hq, List.cons_append, List.cons_append, hj]
  unfold run plan
  rw [he, he]
  have h1 : flowSteps { o with prefix? := some ('.' :: '/' :: n) } j = flowSteps { o with prefix? := some n } j := by
    unfold flowSteps
    rw [hf, hf, hq, hq, if_pos (by simp), if_pos hn, List.cons_append, List.cons_append, hj]
  have h2 : csvSteps { o with prefix? := some ('.' :: '/' :: n) } j = csvSteps { o with prefix? := some n } j := by
    unfold csvSteps; rw [ho]
  have h3 : jsonSteps { o with prefix? := some ('.' :: '/' :: n) } j = jsonSteps { o with prefix? := some n } j := by
    unfold jsonSteps
    rw [ho, hf, hf, hq, hq, List.cons_append, List.cons_append, List.cons_append, List.cons_append, hj, hj]
  rw [h1, h2, h3]
  rfl

/-- **C107, finding.** With an empty prefix, which `write_flow_diagram` provides for, the tables are written beside the
output folder, under the name of the folder. -/
theorem C107_empty_prefix (o : Opts) (j : Job) (d : Disk) (f : Path) (n b : Name) (hb : Base n b)
    (hfo : o.folder = under f n) (hpre : o.pre = []) (hm : d.files o.model ≠ none) (hd : d.dirs f = true)
    (hn : d.dirs (under f n) = true) (hclear : d.dirs (under f (b ++ ".csv".toList)) = false)
    (hclear' : d.dirs (under f (b ++ "_intensity.csv".toList)) = false) (hl : j.loaded = .ok ())
    (he : j.evaluated = .ok ()) (hc : o.csv = true) (hj : o.json = false) (hlt : o.ltp = false) (hs : o.stp = false)
    (hfl : o.flow = false) :
    (run o j d).2 = .ok () ∧
    (run o j d).1.files (under f (b ++ ".csv".toList)) = some ⟨j.id, .table⟩ ∧
    (∀ m, (run o j d).1.files (under o.folder m) = d.files (under o.folder m)) := by
  have hout : o.outputPrefix = under f n := by
    unfold Opts.outputPrefix
    rw [hpre, hfo]
    simp [Path.join, partsOf, under]
  have hst : stem (under f n).name = b := by rw [name_under]; exact base_unique (stem_base n) hb
  have hrun : run o j d = (put f (put f d (b ++ ".csv".toList, ⟨j.id, .table⟩))
      (b ++ "_intensity.csv".toList, ⟨j.id, .intensityTable⟩), .ok ()) := by
    unfold run plan
    rw [hc, hj, hlt, hs, hfl, hl, he]
    simp only [if_true, Bool.false_eq_true, if_false, List.append_nil, List.cons_append, List.nil_append]
    rw [performAll]
    have harg : validateArguments o.model o.folder d = (d, .ok ()) := by
      simp only [validateArguments, Disk.isFile, Option.isSome_iff_ne_none.2 hm, hfo, under_parent, hd, hn]
      rfl
    simp only [Step.perform, harg]
    rw [performAll]
    simp only [Step.perform]
    rw [performAll]
    simp only [Step.perform]
    refine performAll_writes f _ [(b ++ ".csv".toList, ⟨j.id, .table⟩),
      (b ++ "_intensity.csv".toList, ⟨j.id, .intensityTable⟩)] d ?_ hd ?_
    · unfold csvSteps Path.withSuffix
      rw [hout, hst, withName_under, withName_under]
      exact .cons ⟨_, rfl⟩ (.cons ⟨_, rfl⟩ .nil)
    · simp only [List.mem_cons, List.not_mem_nil, or_false]
      rintro x (rfl | rfl)
      · exact hclear
      · exact hclear'
  rw [hrun]
  have hne : under f (b ++ ".csv".toList) ≠ under f (b ++ "_intensity.csv".toList) :=
    fun h => name_ne (p := []) (b := b) (g := []) (g' := []) (show End.table ≠ .itable by decide) (under_inj h)
  refine ⟨rfl, ?_, fun m => ?_⟩
  · simp only [put]
    rw [if_neg hne, if_pos trivial]
  · have hlen : ∀ x, under o.folder m ≠ under f x := by
      intro x h
      have := congrArg (fun q => q.parts.length) h
      simp [under, hfo] at this
    simp only [put]
    rw [if_neg (hlen _), if_neg (hlen _)]

/-! ## Examples -/

/-- A disk with a model in `m`, which is a folder. -/
def disk (n : Name) : Disk where
  dirs q := q = ⟨false, []⟩ ∨ q = ⟨false, ["m".toList]⟩
  files q := if q = ⟨false, ["m".toList, n]⟩ then some ⟨0, .input⟩ else none

/-- A run with all outputs. -/
def all (n : Name) : Opts := ⟨⟨false, ["m".toList, n]⟩, none, none, true, true, true, true, true, false⟩

/-- Everything succeeds; there is one installation. -/
def job (id : ℕ) (g : Name) : Job := ⟨id, .ok (), .ok (), .ok [g], .ok [g]⟩

/-- **C107, finding.** A slash is allowed in the name of an installation, but makes the export fail, after other files
have been written. -/
theorem C107_slash : ∃ (o : Opts) (j : Job) (d : Disk) (g : Name), Plain o.pre ∧ j.long = .ok [g] ∧ '/' ∈ g ∧
    d.files o.model ≠ none ∧ (∀ n, d.dirs (under o.folder n) = false) ∧ j.loaded = .ok () ∧ j.evaluated = .ok () ∧
    (run o j d).2 = .error .os ∧
    (run o j d).1.files (under o.folder (o.pre ++ ".csv".toList)) = some ⟨j.id, .table⟩ := by
  refine ⟨all "a.yml".toList, job 1 "A/B".toList, disk "a.yml".toList, "A/B".toList, ⟨by decide +kernel, by decide +kernel,
    by decide +kernel⟩, rfl, by decide +kernel, by decide +kernel, ?_, rfl, rfl, by decide +kernel, by decide +kernel⟩
  intro n
  have hf : (all "a.yml".toList).folder = ⟨false, ["m".toList, "output".toList]⟩ := by decide +kernel
  rw [hf]
  simp [under, disk]

/-- A run that can succeed. -/
theorem good_example : Good (all "a.yml".toList) (job 1 "A".toList) (disk "a.yml".toList) ["A".toList] where
  model := by decide +kernel
  parent := by decide +kernel
  free := by decide +kernel
  clear n := by
    have hf : (all "a.yml".toList).folder = ⟨false, ["m".toList, "output".toList]⟩ := by decide +kernel
    rw [hf]
    simp [under, disk]
  loaded := rfl
  evaluated := rfl
  long := rfl
  short := rfl
  groups := by simp
  slash := by decide +kernel

example : Base "base.low".toList "base".toList ∧ Base "model".toList "model".toList ∧
    Base ".hidden".toList ".hidden".toList := by
  have h : ∀ n b : Name, stem n = b → Base n b := fun n b h => h ▸ stem_base n
  exact ⟨h _ _ (by decide +kernel), h _ _ (by decide +kernel), h _ _ (by decide +kernel)⟩

/-- The run with all outputs, and one of `base.low.yml`. -/
example : (run (all "a.yml".toList) (job 1 "A".toList) (disk "a.yml".toList)).2.toOption = some () ∧
    (run (all "a.yml".toList) (job 1 "A".toList) (disk "a.yml".toList)).1.files
      ⟨false, ["m".toList, "output".toList, "a.A.ltp.tsv".toList]⟩ = some ⟨1, .long "A".toList⟩ ∧
    (run (all "base.low.yml".toList) (job 1 "A".toList) (disk "base.low.yml".toList)).1.files
      ⟨false, ["m".toList, "output".toList, "base.csv".toList]⟩ = some ⟨1, .table⟩ ∧
    (run (all "base.low.yml".toList) (job 1 "A".toList) (disk "base.low.yml".toList)).1.files
      ⟨false, ["m".toList, "output".toList, "base.low_v3.json".toList]⟩ = some ⟨1, .result true⟩ := by
  decide +kernel

/-- An evaluation that fails leaves the flow diagram. -/
example : (run (all "a.yml".toList) { job 1 "A".toList with evaluated := .error .other } (disk "a.yml".toList)).1.files
      ⟨false, ["m".toList, "output".toList, "a.flow-diagram.json".toList]⟩ = some ⟨1, .diagram⟩ ∧
    (run (all "a.yml".toList) { job 1 "A".toList with evaluated := .error .other } (disk "a.yml".toList)).1.files
      ⟨false, ["m".toList, "output".toList, "a.csv".toList]⟩ = none := by
  decide +kernel

/-- An empty prefix: the table is beside the folder. -/
example : (run { all "a.yml".toList with prefix? := some [] } (job 1 "A".toList) (disk "a.yml".toList)).1.files
    ⟨false, ["m".toList, "output.csv".toList]⟩ = some ⟨1, .table⟩ := by
  decide +kernel

end Verif.C107
