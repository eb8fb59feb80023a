import Verif.Model.Resource
import Verif.Props.C35

/-!
# C48: resource columns are found by name

A column is found under the first header that agrees with the requested name up to case; a resource accepted from a
frame has the frame's columns under its (stripped) headers; a validated time series resource has one number per date in
every column. The exceptions are proved as separate theorems.
-/

namespace Verif.C48
open Verif.Time Verif.Rates Verif.Resource

/-- Specification: position `i` carries the first header that agrees with `name` up to case. -/
def FirstAt (lower : String → String) (headers : List String) (name : String) (i : Nat) : Prop :=
  (∃ h, headers[i]? = some h ∧ lower h = lower name) ∧
    ∀ j < i, ∀ h, headers[j]? = some h → lower h ≠ lower name

/-- Specification: a header that users may write. -/
def Allowed (header : String) : Prop :=
  ∃ c cs, header.toList = c :: cs ∧ (('A' ≤ c ∧ c ≤ 'Z') ∨ ('a' ≤ c ∧ c ≤ 'z')) ∧
    ∀ x ∈ cs, ('A' ≤ x ∧ x ≤ 'Z') ∨ ('a' ≤ x ∧ x ≤ 'z') ∨ ('0' ≤ x ∧ x ≤ '9') ∨ isSpace x = true ∨
      x ∈ ['_', '.', ',', '-', '#', '+', ':', '/']

theorem headerIndex_some (lower : String → String) (headers : List String) (name : String) (i : Nat) :
    headerIndex lower headers name = some i ↔ FirstAt lower headers name i := by
  unfold headerIndex FirstAt
  rw [List.findIdx?_eq_some_iff_getElem]
  constructor
  · rintro ⟨h, hp, hj⟩
    refine ⟨⟨headers[i], List.getElem?_eq_getElem h, by simpa using hp⟩, ?_⟩
    intro j hji h' hh'
    have := hj j hji
    rw [List.getElem?_eq_getElem (by omega)] at hh'
    cases hh'
    simpa using this
  · rintro ⟨⟨h, hh, hl⟩, hj⟩
    obtain ⟨hi, he⟩ := List.getElem?_eq_some_iff.1 hh
    refine ⟨hi, by simp [he, hl], ?_⟩
    intro j hji
    have := hj j hji _ (List.getElem?_eq_getElem (by omega))
    simpa using this

theorem headerIndex_none (lower : String → String) (headers : List String) (name : String) :
    headerIndex lower headers name = none ↔ ∀ h ∈ headers, lower h ≠ lower name := by
  unfold headerIndex
  rw [List.findIdx?_eq_none_iff]
  simp

/-- A column is returned exactly when the first header that agrees up to case has a column, and it is that column. -/
theorem C48_found (lower : String → String) (m : Memory) (name : String) (col : List Cell) :
    getColumn lower m name = .ok col ↔ ∃ i : Nat, FirstAt lower m.headers name i ∧ m.data[i]? = some col := by
  unfold getColumn
  rcases hi : headerIndex lower m.headers name with _ | i
  · refine ⟨fun h => by simp at h, ?_⟩
    rintro ⟨i, hf, -⟩
    rw [(headerIndex_some ..).2 hf] at hi
    exact absurd hi (by simp)
  · have hf := (headerIndex_some ..).1 hi
    constructor
    · intro h
      refine ⟨i, hf, ?_⟩
      rcases hd : m.data[i]? with _ | c
      · simp [hd] at h
      · simp only [hd, Except.ok.injEq] at h
        rw [h]
    · rintro ⟨j, hf', hd⟩
      have := (headerIndex_some ..).2 hf'
      rw [hi] at this
      cases this
      simp [hd]

/-- The header error is raised exactly when no header agrees up to case. -/
theorem C48_missing (lower : String → String) (m : Memory) (name : String) :
    getColumn lower m name = .error (.headerNotFound name) ↔ ∀ h ∈ m.headers, lower h ≠ lower name := by
  rw [← headerIndex_none]
  unfold getColumn
  rcases hi : headerIndex lower m.headers name with _ | i
  · simp
  · rcases hd : m.data[i]? with _ | c <;> simp [hd]

/-- With as many columns as headers the lookup succeeds exactly for the names of headers, and never raises anything but
the header error. -/
theorem C48_complete (lower : String → String) (m : Memory) (hl : m.data.length = m.headers.length) (name : String) :
    (∃ col, getColumn lower m name = .ok col ∧ col ∈ m.data ∧ ∃ h ∈ m.headers, lower h = lower name) ∨
      (getColumn lower m name = .error (.headerNotFound name) ∧ ∀ h ∈ m.headers, lower h ≠ lower name) := by
  rcases hi : headerIndex lower m.headers name with _ | i
  · exact .inr ⟨(C48_missing ..).2 ((headerIndex_none ..).1 hi), (headerIndex_none ..).1 hi⟩
  · left
    have hf := (headerIndex_some ..).1 hi
    obtain ⟨⟨h, hh, hlow⟩, -⟩ := hf
    obtain ⟨hlt, he⟩ := List.getElem?_eq_some_iff.1 hh
    refine ⟨m.data[i], (C48_found ..).2 ⟨i, (headerIndex_some ..).1 hi, List.getElem?_eq_getElem (by omega)⟩,
      List.getElem_mem _, h, he ▸ List.getElem_mem _, hlow⟩

/-- Only the name up to case matters for the column. -/
theorem C48_case (lower : String → String) (m : Memory) (a b : String) (h : lower a = lower b) (col : List Cell) :
    getColumn lower m a = .ok col ↔ getColumn lower m b = .ok col := by
  rw [C48_found, C48_found]
  unfold FirstAt
  rw [h]

/-- When the headers differ up to case, every header gives its own column. -/
theorem C48_own_column (lower : String → String) (m : Memory) (hn : (m.headers.map lower).Nodup) (i : Nat)
    (h : String) (col : List Cell) (hh : m.headers[i]? = some h) (hc : m.data[i]? = some col) :
    getColumn lower m h = .ok col := by
  rw [C48_found]
  refine ⟨i, ⟨⟨h, hh, rfl⟩, ?_⟩, hc⟩
  intro j hj h' hh' he
  obtain ⟨hi, rfl⟩ := List.getElem?_eq_some_iff.1 hh
  obtain ⟨hj', rfl⟩ := List.getElem?_eq_some_iff.1 hh'
  have := List.pairwise_iff_getElem.1 hn j i (by simpa using hj') (by simpa using hi) hj
  simp only [List.getElem_map] at this
  exact this he

/-- Two headers equal up to case: the column of the later one can not be reached under any name. -/
theorem C48_shadowed (lower : String → String) (m : Memory) (i j : Nat) (hij : i < j) (a b : String)
    (ha : m.headers[i]? = some a) (hb : m.headers[j]? = some b) (hab : lower a = lower b) (name : String)
    (k : Nat) (hk : headerIndex lower m.headers name = some k) : k ≠ j := by
  rintro rfl
  obtain ⟨⟨h, hh, hl⟩, hj⟩ := (headerIndex_some ..).1 hk
  rw [hb] at hh
  cases hh
  exact hj i hij a ha (by rw [hab, hl])

theorem isLetter_iff (c : Char) : isLetter c = true ↔ ('A' ≤ c ∧ c ≤ 'Z') ∨ ('a' ≤ c ∧ c ≤ 'z') := by
  simp [isLetter]

theorem matches_iff (h : String) : matchesHeader h = true ↔ Allowed h := by
  unfold matchesHeader Allowed
  rcases hl : h.toList with _ | ⟨c, cs⟩
  · simp
  · simp only [Bool.and_eq_true, isLetter_iff, List.all_eq_true, List.cons.injEq]
    constructor
    · rintro ⟨h1, h2⟩
      refine ⟨c, cs, ⟨rfl, rfl⟩, h1, fun x hx => ?_⟩
      have := h2 x hx
      simp only [isHeaderChar, Bool.or_eq_true, isLetter_iff, isDigit, Bool.and_eq_true, decide_eq_true_eq,
        List.contains_iff_mem] at this
      tauto
    · rintro ⟨_, _, ⟨rfl, rfl⟩, h1, h2⟩
      refine ⟨h1, fun x hx => ?_⟩
      have := h2 x hx
      simp only [isHeaderChar, Bool.or_eq_true, isLetter_iff, isDigit, Bool.and_eq_true, decide_eq_true_eq,
        List.contains_iff_mem]
      tauto

theorem validateHeaders_ok (hs : List String) :
    validateHeaders hs = .ok () ↔ ∀ h ∈ hs, Allowed h ∧ isUnnamed h = false := by
  induction hs with
  | nil => simp [validateHeaders]
  | cons h t ih =>
    unfold validateHeaders
    by_cases h1 : matchesHeader h = false
    · have : ¬ Allowed h := fun ha => by rw [(matches_iff h).2 ha] at h1; exact absurd h1 (by simp)
      simp [h1, this]
    · have ha : Allowed h := (matches_iff h).1 (by simpa using h1)
      by_cases h2 : isUnnamed h
      · simp [h1, h2]
      · simp [h1, h2, ih, ha]

theorem validateHeaders_err (hs : List String) (e : RErr) (h : validateHeaders hs = .error e) : e = .invalidHeader := by
  induction hs with
  | nil => simp [validateHeaders] at h
  | cons a t ih =>
    unfold validateHeaders at h
    split at h
    · cases h; rfl
    · split at h
      · cases h; rfl
      · exact ih h

theorem notNan_ok (headers : List String) (i : Nat) (cols : List (List Cell)) :
    validateNotNan headers i cols = .ok () ↔ ∀ col ∈ cols, ∀ c ∈ col, c ≠ .float none := by
  induction cols generalizing i with
  | nil => simp [validateNotNan]
  | cons col t ih =>
    unfold validateNotNan
    rcases hf : col.findIdx? isNaN with _ | r
    · rw [List.findIdx?_eq_none_iff] at hf
      simp only [ih, List.mem_cons, forall_eq_or_imp]
      constructor
      · intro h
        refine ⟨fun c hc he => ?_, h⟩
        have := hf c hc
        rw [he] at this
        simp [isNaN] at this
      · exact fun h => h.2
    · obtain ⟨hr, hp, -⟩ := List.findIdx?_eq_some_iff_getElem.1 hf
      have hbad : ¬ ∀ c ∈ col, c ≠ Cell.float none := by
        intro h
        refine h _ (List.getElem_mem hr) ?_
        revert hp
        cases col[r] with
        | int n => simp [isNaN]
        | text s => simp [isNaN]
        | float x => cases x <;> simp [isNaN]
      constructor
      · intro h
        rcases hh : headers[i]? with _ | s <;> simp [hh] at h
      · intro h
        exact absurd (h col (by simp)) hbad

/-- A resource accepted from a frame without gaps permission has only permitted headers and no missing number; its
headers are the stripped labels and, when there are rows, its columns are those of the frame, as many as headers. -/
theorem C48_accepted (f : Frame) (hf : f.columns.length = f.labels.length) (allowNans : Bool) (m : Memory)
    (h : fromFrame f allowNans = .ok m) :
    m.headers = f.labels.map strip ∧ (∀ x ∈ m.headers, Allowed x ∧ isUnnamed x = false) ∧
      (allowNans = false → ∀ col ∈ m.data, ∀ c ∈ col, c ≠ .float none) ∧
      (0 < f.rows → f.labels ≠ [] → m.data = f.columns ∧ m.data.length = m.headers.length) := by
  unfold fromFrame at h
  simp only [Bind.bind, Except.bind] at h
  rcases hv : validateHeaders (f.labels.map strip) with e | u
  · simp [hv] at h
  · rw [hv] at h
    simp only at h
    have hcase : ∀ (hn : allowNans = false), validateNotNan (f.labels.map strip) 0 f.columns = .ok () := by
      intro hn
      rw [hn] at h
      rcases hx : validateNotNan (f.labels.map strip) 0 f.columns with e | u
      · simp [hx] at h
      · rfl
    have hm : m = ⟨f.labels.map strip, if f.rows = 0 ∨ f.columns = [] then [[]] else f.columns⟩ := by
      cases allowNans with
      | true => simpa using h.symm
      | false => rw [hcase rfl] at h; simpa using h.symm
    subst hm
    refine ⟨rfl, (validateHeaders_ok _).1 hv, ?_, ?_⟩
    · intro hn
      have := (notNan_ok _ _ _).1 (hcase hn)
      simp only
      split
      · simp
      · exact this
    · intro h0 hl
      have : f.columns ≠ [] := by
        intro hc
        rw [hc] at hf
        exact hl (List.length_eq_zero_iff.1 hf.symm)
      have hno : ¬(f.rows = 0 ∨ f.columns = []) := by
        push Not
        exact ⟨by omega, this⟩
      simp [hno, hf]

/-- A frame is rejected for its headers exactly when some stripped label is not permitted. -/
theorem C48_rejected_header (f : Frame) (allowNans : Bool) :
    fromFrame f allowNans = .error .invalidHeader ↔
      ∃ l ∈ f.labels, ¬ (Allowed (strip l) ∧ isUnnamed (strip l) = false) := by
  have hne : ∀ (hs : List String) i cols, validateNotNan hs i cols ≠ .error .invalidHeader := by
    intro hs i cols
    induction cols generalizing i with
    | nil => simp [validateNotNan]
    | cons c t ih =>
      unfold validateNotNan
      split
      · split <;> simp
      · exact ih _
  unfold fromFrame
  simp only [Bind.bind, Except.bind]
  rcases hv : validateHeaders (f.labels.map strip) with e | u
  · have := validateHeaders_err _ _ hv
    subst this
    simp only [true_iff]
    by_contra hc
    push Not at hc
    have : validateHeaders (f.labels.map strip) = .ok () := by
      rw [validateHeaders_ok]
      intro x hx
      obtain ⟨l, hl, rfl⟩ := List.mem_map.1 hx
      exact hc l hl
    rw [this] at hv
    exact absurd hv (by simp)
  · have hall := (validateHeaders_ok _).1 hv
    constructor
    · intro h
      cases allowNans with
      | true => simp at h
      | false =>
        rcases hx : validateNotNan (f.labels.map strip) 0 f.columns with e | u
        · simp only [hx] at h
          exact absurd hx (by simp only [Bool.false_eq_true, if_false] at h; cases h; exact hne _ _ _)
        · simp [hx] at h
    · rintro ⟨l, hl, hno⟩
      exact absurd (hall _ (List.mem_map_of_mem hl)) hno

/-- The reported gap is the first one: nothing is missing in earlier columns or earlier rows of that column. -/
theorem C48_first_gap (headers : List String) (cols : List (List Cell))
    (h : String) (row : Nat) (he : validateNotNan headers 0 cols = .error (.invalidColumn h row)) :
    ∃ (i : Nat) (col : List Cell), headers[i]? = some h ∧ cols[i]? = some col ∧ col[row]? = some (.float none) ∧
      (∀ j < i, ∀ c', cols[j]? = some c' → ∀ x ∈ c', x ≠ .float none) ∧
      ∀ r < row, ∀ x, col[r]? = some x → x ≠ .float none := by
  have key : ∀ (cols : List (List Cell)) (i : Nat), validateNotNan headers i cols = .error (.invalidColumn h row) →
      ∃ (k : Nat) (col : List Cell), headers[i + k]? = some h ∧ cols[k]? = some col ∧ col[row]? = some (.float none) ∧
      (∀ j < k, ∀ c', cols[j]? = some c' → ∀ x ∈ c', x ≠ .float none) ∧
      ∀ r < row, ∀ x, col[r]? = some x → x ≠ .float none := by
    intro cols
    induction cols with
    | nil => intro i he; simp [validateNotNan] at he
    | cons col t ih =>
      intro i he
      unfold validateNotNan at he
      have hnan : ∀ c : Cell, isNaN c = true ↔ c = .float none := by
        intro c
        cases c with
        | int n => simp [isNaN]
        | text s => simp [isNaN]
        | float x => cases x <;> simp [isNaN]
      rcases hf : col.findIdx? isNaN with _ | r
      · rw [hf] at he
        obtain ⟨k, c, h1, h2, h3, h4, h5⟩ := ih _ he
        refine ⟨k + 1, c, by rw [← h1]; congr 1; omega, by simpa using h2, h3, ?_, h5⟩
        intro j hj c' hc' x hx
        cases j with
        | zero =>
          simp only [List.getElem?_cons_zero, Option.some.injEq] at hc'
          subst hc'
          intro hxe
          have := List.findIdx?_eq_none_iff.1 hf x hx
          rw [(hnan x).2 hxe] at this
          exact absurd this (by simp)
        | succ j => exact h4 j (by omega) c' (by simpa using hc') x hx
      · rw [hf] at he
        rcases hh : headers[i]? with _ | s
        · simp [hh] at he
        · simp only [hh, Except.error.injEq, RErr.invalidColumn.injEq] at he
          obtain ⟨rfl, rfl⟩ := he
          obtain ⟨hr, hp, hq⟩ := List.findIdx?_eq_some_iff_getElem.1 hf
          refine ⟨0, col, by simpa using hh, by simp, ?_, by simp, ?_⟩
          · rw [List.getElem?_eq_getElem hr, (hnan _).1 hp]
          · intro r' hr' x hx hxe
            have := hq r' hr'
            rw [List.getElem?_eq_getElem (by omega)] at hx
            cases hx
            exact this ((hnan _).2 hxe)
  obtain ⟨k, c, h1, rest⟩ := key cols 0 he
  exact ⟨k, c, by simpa using h1, rest⟩

/-- **Finding.** A table with headers but no rows keeps one column, however many headers there are: the first header has
an empty column, every other header is reported as having no column. -/
theorem C48_empty_table (lower : String → String) (f : Frame) (h0 : f.rows = 0) (m : Memory)
    (h : fromFrame f true = .ok m) (name : String) (i : Nat) (hi : FirstAt lower m.headers name i) :
    getColumn lower m name = if i = 0 then .ok [] else .error (.columnNotFound name) := by
  unfold fromFrame at h
  simp only [Bind.bind, Except.bind] at h
  rcases hv : validateHeaders (f.labels.map strip) with e | u
  · simp [hv] at h
  · rw [hv] at h
    simp only [if_true, h0, true_or, Except.ok.injEq] at h
    subst h
    unfold getColumn
    rw [(headerIndex_some ..).2 hi]
    cases i <;> simp

theorem bind_ok {ε α β : Type} {x : Except ε α} {f : α → Except ε β} {b : β} (h : Except.bind x f = .ok b) :
    ∃ a, x = .ok a ∧ f a = .ok b := by
  cases x with
  | error e => simp [Except.bind] at h
  | ok a => exact ⟨a, rfl, h⟩

/-- The dates of a time series resource come from the column named DATE, else DATES, else the first one, and the series
are the other headers. -/
theorem C48_time_column (lower : String → String) (parse : List Cell → Option (List DateTime)) (m : Memory)
    (t : TimeSeries) (h : TimeSeries.create lower parse m = .ok t) :
    t.resource = m ∧ ∃ name col, getColumn lower m name = .ok col ∧ parse col = some t.times ∧
      (("DATE" ∈ m.headers ∧ name = "DATE" ∧ ∀ x, x ∈ t.headers ↔ x ∈ m.headers ∧ x ≠ "DATE") ∨
        ("DATE" ∉ m.headers ∧ "DATES" ∈ m.headers ∧ name = "DATES" ∧
          ∀ x, x ∈ t.headers ↔ x ∈ m.headers ∧ x ≠ "DATES") ∨
        ("DATE" ∉ m.headers ∧ "DATES" ∉ m.headers ∧ m.headers = name :: t.headers)) := by
  unfold TimeSeries.create at h
  obtain ⟨⟨name, rest⟩, hn, h⟩ := bind_ok h
  obtain ⟨col, hc, h⟩ := bind_ok h
  split at h
  · rcases hp : parse col with _ | times
    · simp [hp] at h
    · simp only [hp, Except.ok.injEq] at h
      subst h
      refine ⟨rfl, name, col, hc, hp, ?_⟩
      unfold timeHeader at hn
      split at hn
      · simp at hn
      · rename_i a as hh
        rw [hh]
        split at hn
        · rename_i h1
          simp only [Except.ok.injEq, Prod.mk.injEq] at hn
          obtain ⟨rfl, rfl⟩ := hn
          left
          exact ⟨List.contains_iff_mem.1 h1, rfl, fun x => by rw [List.mem_filter]; simp⟩
        · rename_i h1
          have h1' : "DATE" ∉ a :: as := fun hc => h1 (List.contains_iff_mem.2 hc)
          split at hn
          · rename_i h2
            simp only [Except.ok.injEq, Prod.mk.injEq] at hn
            obtain ⟨rfl, rfl⟩ := hn
            right; left
            exact ⟨h1', List.contains_iff_mem.1 h2, rfl, fun x => by rw [List.mem_filter]; simp⟩
          · rename_i h2
            simp only [Except.ok.injEq, Prod.mk.injEq] at hn
            obtain ⟨rfl, rfl⟩ := hn
            right; right
            exact ⟨h1', fun hc => h2 (List.contains_iff_mem.2 hc), rfl⟩
  · simp at h

theorem validateEach_ok (numeric : String → Bool) (n : Nat) (l : List (String × List Cell)) :
    validateEach numeric n l = .ok () ↔ ∀ p ∈ l, p.2.length = n ∧ ∀ c ∈ p.2, isNumber numeric c = true := by
  induction l with
  | nil => simp [validateEach]
  | cons p t ih =>
    obtain ⟨h, col⟩ := p
    unfold validateEach
    by_cases hl : col.length ≠ n
    · simp [hl]
    · rw [if_neg hl]
      have hl' : col.length = n := not_not.1 hl
      rcases hf : col.findIdx? (fun c => !isNumber numeric c) with _ | r
      · rw [List.findIdx?_eq_none_iff] at hf
        simp only [ih, List.mem_cons, forall_eq_or_imp, hl', true_and]
        constructor
        · intro h
          exact ⟨fun c hc => by simpa using hf c hc, h⟩
        · exact fun h => h.2
      · obtain ⟨hr, hp, -⟩ := List.findIdx?_eq_some_iff_getElem.1 hf
        simp only [List.mem_cons, forall_eq_or_imp]
        constructor
        · simp
        · rintro ⟨⟨-, h⟩, -⟩
          have := h _ (List.getElem_mem hr)
          simp [this] at hp

theorem mapM_ok {α β ε : Type} (f : α → Except ε β) (xs : List α) (ys : List β) (h : xs.mapM f = .ok ys) :
    xs.length = ys.length ∧ ∀ p ∈ xs.zip ys, f p.1 = .ok p.2 := by
  induction xs generalizing ys with
  | nil =>
    simp only [List.mapM_nil, Pure.pure, Except.pure, Except.ok.injEq] at h
    subst h
    simp
  | cons x t ih =>
    rw [List.mapM_cons] at h
    obtain ⟨y, hy, h⟩ := bind_ok h
    obtain ⟨ys', hys, h⟩ := bind_ok h
    simp only [Pure.pure, Except.pure, Except.ok.injEq] at h
    subst h
    obtain ⟨h1, h2⟩ := ih ys' hys
    refine ⟨by simp [h1], ?_⟩
    intro p hp
    rcases List.mem_cons.1 hp with rfl | hp
    · exact hy
    · exact h2 p hp

/-- A validated time series resource has at least one date, no date twice, at least one series, and under every series
name a column with exactly one number for each date. -/
theorem C48_series_complete (lower : String → String) (numeric : String → Bool) (t u : TimeSeries)
    (h : t.validate lower numeric = .ok u) :
    u = t ∧ t.times ≠ [] ∧ t.times.Nodup ∧ t.headers ≠ [] ∧
      ∀ name ∈ t.headers, ∃ col, getColumn lower t.resource name = .ok col ∧ col.length = t.times.length ∧
        ∀ c ∈ col, isNumber numeric c = true := by
  unfold TimeSeries.validate at h
  by_cases h1 : t.times = []
  · simp [h1, throw, throwThe, MonadExceptOf.throw, Bind.bind, Except.bind] at h
  · rw [if_neg h1] at h
    by_cases h2 : Names.getDuplicates t.times ≠ []
    · simp [h2, throw, throwThe, MonadExceptOf.throw, Bind.bind, Except.bind] at h
    · rw [if_neg h2] at h
      have hnd : t.times.Nodup := by
        exact List.nodup_iff_count.2 ((C35.no_duplicates _).1 (not_not.1 h2))
      simp only [Bind.bind, Except.bind] at h
      rcases hc : t.headers.mapM (getColumn lower t.resource) with e | columns
      · simp [hc] at h
      · rw [hc] at h
        obtain ⟨hlen, hcol⟩ := mapM_ok _ _ _ hc
        cases columns with
        | nil => simp [throw, throwThe, MonadExceptOf.throw] at h
        | cons c cs =>
          simp only at h
          by_cases h3 : c.length = 0
          · simp [h3, throw, throwThe, MonadExceptOf.throw] at h
          · rw [if_neg h3] at h
            by_cases h4 : c.length ≠ t.times.length
            · simp [h4, throw, throwThe, MonadExceptOf.throw] at h
            · rw [if_neg h4] at h
              rcases hv : validateEach numeric t.times.length (t.headers.zip (c :: cs)) with e | x
              · simp [hv] at h
              · rw [hv] at h
                simp only [Except.ok.injEq] at h
                have hv' := (validateEach_ok _ _ _).1 hv
                refine ⟨h.symm, h1, hnd, ?_, ?_⟩
                · intro hh
                  rw [hh] at hlen
                  simp at hlen
                · intro name hname
                  obtain ⟨i, hi, rfl⟩ := List.getElem_of_mem hname
                  have hi' : i < (c :: cs).length := by omega
                  have hz : (t.headers[i], (c :: cs)[i]) ∈ t.headers.zip (c :: cs) := by
                    have hz' : i < (t.headers.zip (c :: cs)).length := by simp only [List.length_zip]; omega
                    have := List.getElem_mem hz'
                    rwa [List.getElem_zip] at this
                  exact ⟨(c :: cs)[i], hcol _ hz, (hv' _ hz).1, (hv' _ hz).2⟩

/-- **Finding.** The choice of the date column is case sensitive, the lookup is not: with headers `date, DATE` the
dates are read from the column `date`, which is also kept as a series. -/
theorem C48_date_shadow (lower : String → String) (hlow : lower "date" = lower "DATE")
    (parse : List Cell → Option (List DateTime)) (a b : List Cell) (ha : a.all isTime = true) :
    TimeSeries.create lower parse ⟨["date", "DATE"], [a, b]⟩ =
      match parse a with
      | some times => .ok ⟨⟨["date", "DATE"], [a, b]⟩, ["date"], times⟩
      | none => .error .badTimeVector := by
  have h1 : timeHeader ["date", "DATE"] = .ok ("DATE", ["date"]) := by decide
  have h2 : getColumn lower ⟨["date", "DATE"], [a, b]⟩ "DATE" = .ok a := by
    rw [C48_found]
    exact ⟨0, ⟨⟨"date", rfl, hlow⟩, by simp⟩, rfl⟩
  simp only [TimeSeries.create, Bind.bind, Except.bind, h1, h2, ha, if_true]
  cases parse a <;> rfl

/-- A table as in the documentation: found by name, whatever the case. -/
example : getColumn String.toLower ⟨["POWER", "Fuel"], [[.int 0, .int 10], [.int 0, .float (some (5 / 2))]]⟩ "FUEL" =
    .ok [.int 0, .float (some (5 / 2))] := by decide +kernel

example : getColumn String.toLower ⟨["POWER", "Fuel"], [[.int 0], [.int 0]]⟩ "RATE" =
    .error (.headerNotFound "RATE") := by decide +kernel

example : fromFrame ⟨[" DATE ", "A"], 2, [[.int 2020, .int 2021], [.float (some 1), .float none]]⟩ false =
    .error (.invalidColumn "A" 1) := by decide +kernel

example : fromFrame ⟨["DATE", "Unnamed: 1"], 1, [[.int 2020], [.int 1]]⟩ true = .error .invalidHeader := by
  decide +kernel

example : (fromFrame ⟨["A", "B"], 0, [[], []]⟩ true).bind (fun m => getColumn String.toLower m "B") =
    .error (.columnNotFound "B") := by decide +kernel

end Verif.C48
