import Verif.Model.ChartFile
import Verif.Props.C56
import Mathlib.Data.List.Dedup

/-!
# C103: charts from files and charts in the results

The chart read from a file consists of exactly the rows of the file: one curve for each speed that occurs, in the order of
the speeds, with the rows of that speed in the order of their rates and in the units of the calculation. The order of the
rows does not matter, and writing the curves in the YAML file gives the same chart as writing them to a file. The results
show the curves without the control margin, and one point of the control margin line for each of them.
-/

namespace Verif.C103
open Verif.Charts Verif.Resource Verif.ChartFile

/-! ## Specification -/

/-- One row of a chart file. -/
structure Row where
  speed : ℚ
  rate : ℚ
  head : ℚ
  eff : ℚ
  deriving DecidableEq

/-- Joule per kilogram for one unit of head. -/
def perUnit : HeadUnit → ℚ
  | .kjPerKg => 1000
  | .joulePerKg => 1
  | .m => 981 / 100

/-- What makes up the whole for an efficiency. -/
def whole : EffUnit → ℚ
  | .fraction => 1
  | .percentage => 100

/-- The point of the chart a row stands for. -/
def Row.point (u : ChartUnits) (row : Row) : Pt := ⟨row.rate, row.head * perUnit u.head, row.eff / whole u.eff⟩

/-- The number written in a cell. -/
inductive Written (parse : String → Option ℚ) : Cell → ℚ → Prop
  | int (n : ℤ) : Written parse (.int n) n
  | float (x : ℚ) : Written parse (.float (some x)) x
  | text (s : String) (x : ℚ) : parse s = some x → Written parse (.text s) x

/-- The column with this header is the first one with the header up to case. -/
def Column (r : Reader) (m : Memory) (header : String) (col : List Cell) : Prop :=
  ∃ (i : Nat) (h : String), m.headers[i]? = some h ∧ r.lower h = r.lower header ∧
    (∀ j < i, ∀ g, m.headers[j]? = some g → r.lower g ≠ r.lower header) ∧ m.data[i]? = some col

/-- The file has the values `xs` in the column with this header: it is the first one with the header up to case. -/
def Holds (r : Reader) (m : Memory) (header : String) (xs : List ℚ) : Prop :=
  ∃ (i : Nat) (h : String) (col : List Cell), m.headers[i]? = some h ∧ r.lower h = r.lower header ∧
    (∀ j < i, ∀ g, m.headers[j]? = some g → r.lower g ≠ r.lower header) ∧
    m.data[i]? = some col ∧ List.Forall₂ (Written r.parse) col xs

/-- The file lists these rows; further columns hold numbers. -/
structure Lists (r : Reader) (m : Memory) (rows : List Row) : Prop where
  speed : Holds r m "SPEED" (rows.map (·.speed))
  rate : Holds r m "RATE" (rows.map (·.rate))
  head : Holds r m "HEAD" (rows.map (·.head))
  eff : Holds r m "EFFICIENCY" (rows.map (·.eff))
  others : ∀ h ∈ m.headers, ∃ xs, Holds r m h xs
  exact : "SPEED" ∈ m.headers ∧ "RATE" ∈ m.headers ∧ "HEAD" ∈ m.headers ∧ "EFFICIENCY" ∈ m.headers

/-- The rows of one speed. -/
def atSpeed (rows : List Row) (s : ℚ) : List Row := rows.filter fun row => decide (row.speed = s)

/-- What a chart needs: at least two rows for every speed, and efficiencies of at most one. -/
def Fits (u : ChartUnits) (rows : List Row) : Prop :=
  ∀ row ∈ rows, 2 ≤ (atSpeed rows row.speed).length ∧ 0 ≤ (row.point u).eff ∧ (row.point u).eff ≤ 1

/-- The chart shows the rows. -/
structure Shows (u : ChartUnits) (rows : List Row) (d : Data) : Prop where
  order : d.curves.Pairwise fun a b => a.speed < b.speed
  speeds : ∀ s, (∃ c ∈ d.curves, c.speed = s) ↔ ∃ row ∈ rows, row.speed = s
  points : ∀ c ∈ d.curves, c.pts.Perm ((atSpeed rows c.speed).map (Row.point u)) ∧
    c.pts.Pairwise fun p q => p.rate ≤ q.rate

/-! ## Columns -/

theorem numbers_some (parse : String → Option ℚ) : ∀ (cells : List Cell) (xs : List ℚ),
    cells.map (number parse) = xs.map some ↔ numbers parse cells = some xs := by
  intro cells
  induction cells with
  | nil =>
    intro xs
    cases xs <;> simp [numbers]
  | cons c t ih =>
    intro xs
    cases xs with
    | nil =>
      simp only [List.map_cons, List.map_nil, numbers]
      constructor
      · intro h; cases h
      · intro h
        split at h
        · cases h
        · cases h
    | cons x l =>
      simp only [List.map_cons, List.cons.injEq, numbers, ih l]
      constructor
      · rintro ⟨h1, h2⟩
        rw [h1, h2]
      · intro h
        split at h
        · rename_i a b h1 h2
          have h := Option.some.inj h
          obtain ⟨rfl, rfl⟩ := List.cons.inj h
          exact ⟨h1, h2⟩
        · cases h

theorem number_written (parse : String → Option ℚ) (c : Cell) (x : ℚ) : number parse c = some x ↔ Written parse c x := by
  constructor
  · intro h
    cases c with
    | int n => cases h; exact .int n
    | float y => cases h; exact .float x
    | text s => exact .text s x h
  · intro h
    cases h with
    | int n => rfl
    | float x => rfl
    | text s x h => exact h

theorem numbers_written (parse : String → Option ℚ) (cells : List Cell) (xs : List ℚ) :
    List.Forall₂ (Written parse) cells xs ↔ numbers parse cells = some xs := by
  rw [← numbers_some]
  induction cells generalizing xs with
  | nil => cases xs <;> simp
  | cons c t ih =>
    cases xs with
    | nil => simp
    | cons x xs => simp only [List.forall₂_cons, List.map_cons, List.cons.injEq, ih, number_written]

theorem headerIndex_some {lower : String → String} {headers : List String} {header h : String} {i : Nat}
    (h1 : headers[i]? = some h) (h2 : lower h = lower header)
    (h3 : ∀ j < i, ∀ g, headers[j]? = some g → lower g ≠ lower header) :
    headerIndex lower headers header = some i := by
  unfold headerIndex
  rw [List.findIdx?_eq_some_iff_getElem]
  obtain ⟨hi, he⟩ := List.getElem?_eq_some_iff.1 h1
  refine ⟨hi, by simp [he, h2], ?_⟩
  intro j hj
  have := h3 j hj _ (List.getElem?_eq_getElem (by omega))
  simpa using this

theorem holds_float {r : Reader} {m : Memory} {header : String} {xs : List ℚ} (h : Holds r m header xs) :
    floatColumn r m header = .ok xs := by
  obtain ⟨i, h', col, h1, h2, h3, h4, h5⟩ := h
  unfold floatColumn getColumn
  rw [headerIndex_some h1 h2 h3]
  dsimp only
  rw [h4]
  dsimp only
  rw [(numbers_written _ _ _).1 h5]

theorem frame_total {r : Reader} {m : Memory} : ∀ hs : List String,
    (∀ h ∈ hs, ∃ xs, floatColumn r m h = .ok xs) → ∃ frame, readFrame r m hs = .ok frame := by
  intro hs
  induction hs with
  | nil => intro _; exact ⟨[], rfl⟩
  | cons h t ih =>
    intro hall
    obtain ⟨xs, hx⟩ := hall h (by simp)
    obtain ⟨rest, hr⟩ := ih fun g hg => hall g (by simp [hg])
    exact ⟨(h, xs) :: rest, by simp only [readFrame, hx, hr]⟩

theorem frame_column {r : Reader} {m : Memory} : ∀ (hs : List String) (frame : List (String × List ℚ)),
    readFrame r m hs = .ok frame → ∀ h, (h ∈ hs → column frame h = floatColumn r m h) ∧
      (h ∉ hs → column frame h = .error (.keyError h)) := by
  intro hs
  induction hs with
  | nil =>
    intro frame hf h
    cases Except.ok.inj hf
    exact ⟨fun h => absurd h (by simp), fun _ => rfl⟩
  | cons g t ih =>
    intro frame hf h
    unfold readFrame at hf
    rcases hg : floatColumn r m g with e | xs
    · rw [hg] at hf; cases hf
    · rw [hg] at hf
      dsimp only at hf
      rcases ht : readFrame r m t with e | rest
      · rw [ht] at hf; cases hf
      · rw [ht] at hf
        have hf := Except.ok.inj hf
        subst hf
        obtain ⟨i1, i2⟩ := ih rest ht h
        by_cases e : g = h
        · subst e
          refine ⟨fun _ => ?_, fun n => absurd (by simp) n⟩
          rw [hg]
          simp [column]
        · have hc : column ((g, xs) :: rest) h = column rest h := by
            simp [column, e]
          rw [hc]
          refine ⟨fun hm => ?_, fun hn => i2 fun hm => hn (by simp [hm])⟩
          rcases List.mem_cons.1 hm with hm | hm
          · exact absurd hm.symm e
          · exact i1 hm

/-! ## Curves of rows -/

/-- The curve through rows that are good enough. -/
def build (u : ChartUnits) (s : ℚ) (rows : List Row) : Except CErr Curve :=
  if (∀ row ∈ rows, 0 ≤ (row.point u).eff ∧ (row.point u).eff ≤ 1) ∧ 2 ≤ rows.length then
    match (rows.map (Row.point u)).insertionSort (fun a b => a.rate ≤ b.rate) with
    | [] => .error .validation
    | p :: rest => .ok ⟨s, p, rest⟩
  else .error .validation

theorem convertHead_rows (u : ChartUnits) (rows : List Row) :
    convertHead u (rows.map (·.head)) = rows.map fun row => (row.point u).head := by
  unfold convertHead Row.point perUnit
  cases u.head <;> simp [Units.earthGravity]

theorem convertEff_rows (u : ChartUnits) (rows : List Row) :
    convertEff u (rows.map (·.eff)) = rows.map fun row => (row.point u).eff := by
  unfold convertEff Row.point whole
  cases u.eff <;> simp

theorem zip_rows {α : Type} (f g k : α → ℚ) (l : List α) :
    List.zipWith (fun r (he : ℚ × ℚ) => Pt.mk r he.1 he.2) (l.map f) ((l.map g).zip (l.map k)) =
      l.map fun a => ⟨f a, g a, k a⟩ := by
  induction l with
  | nil => rfl
  | cons a t ih => simp only [List.map_cons, List.zip_cons_cons, List.zipWith_cons_cons, ih]

theorem makeCurve_rows (u : ChartUnits) (s : ℚ) (rows : List Row) :
    makeCurve u s (rows.map (·.rate)) (rows.map (·.head)) (rows.map (·.eff)) = build u s rows := by
  unfold makeCurve build Curve.make convertRate
  rw [convertHead_rows, convertEff_rows, zip_rows]
  have hp : (rows.map fun a => (⟨a.rate, (a.point u).head, (a.point u).eff⟩ : Pt)) = rows.map (Row.point u) :=
    List.map_congr_left fun a _ => rfl
  rw [hp]
  by_cases h1 : ∀ row ∈ rows, 0 ≤ (row.point u).eff ∧ (row.point u).eff ≤ 1
  · have h1' : ∀ e ∈ rows.map (fun row => (row.point u).eff), 0 ≤ e ∧ e ≤ 1 := by
      intro e he
      obtain ⟨row, hr, rfl⟩ := List.mem_map.1 he
      exact h1 row hr
    rw [if_neg (not_not.2 h1'), if_neg (not_not.2 (by simp))]
    by_cases h2 : 2 ≤ rows.length
    · rw [if_neg (by simpa using h2), if_pos ⟨h1, h2⟩]
      cases (rows.map (Row.point u)).insertionSort (fun a b => a.rate ≤ b.rate) <;> rfl
    · rw [if_pos (by simpa using h2), if_neg fun h => h2 h.2]
  · have h1' : ¬ ∀ e ∈ rows.map (fun row => (row.point u).eff), 0 ≤ e ∧ e ≤ 1 :=
      fun h => h1 fun row hr => h _ (List.mem_map.2 ⟨row, hr, rfl⟩)
    rw [if_pos h1', if_neg fun h => h1 h.1]

theorem build_ok {u : ChartUnits} {s : ℚ} {rows : List Row} {c : Curve} (h : build u s rows = .ok c) :
    c.speed = s ∧ c.pts = (rows.map (Row.point u)).insertionSort (fun a b => a.rate ≤ b.rate) := by
  unfold build at h
  split at h
  · split at h
    · cases h
    · rename_i p rest hs
      have h := Except.ok.inj h
      subst h
      exact ⟨rfl, hs.symm⟩
  · cases h

theorem build_total {u : ChartUnits} {s : ℚ} {rows : List Row} :
    (∃ c, build u s rows = .ok c) ↔ (∀ row ∈ rows, 0 ≤ (row.point u).eff ∧ (row.point u).eff ≤ 1) ∧ 2 ≤ rows.length := by
  unfold build
  constructor
  · rintro ⟨c, h⟩
    split at h
    · assumption
    · cases h
  · intro h
    rw [if_pos h]
    cases hs : (rows.map (Row.point u)).insertionSort (fun a b => a.rate ≤ b.rate) with
    | nil =>
      have := (List.perm_insertionSort (fun (a b : Pt) => a.rate ≤ b.rate) (rows.map (Row.point u))).length_eq
      rw [hs] at this
      simp only [List.length_nil, List.length_map] at this
      omega
    | cons p rest => exact ⟨_, rfl⟩

theorem build_error {u : ChartUnits} {s : ℚ} {rows : List Row} {e : CErr} (h : build u s rows = .error e) :
    e = .validation := by
  unfold build at h
  split at h
  · split at h
    · cases h; rfl
    · cases h
  · cases h; rfl

theorem inGroup_rows (rows : List Row) (f : Row → ℚ) (s : ℚ) :
    inGroup (rows.map (·.speed)) (rows.map f) s = (atSpeed rows s).map f := by
  unfold inGroup atSpeed
  induction rows with
  | nil => rfl
  | cons row t ih =>
    simp only [List.map_cons, List.zip_cons_cons, List.filter_cons]
    by_cases h : row.speed = s
    · simp only [h, decide_true, if_true, List.map_cons, ih]
    · simp only [h, decide_false, Bool.false_eq_true, if_false, ih]

theorem mem_groups (speeds : List ℚ) (s : ℚ) : s ∈ groups speeds ↔ s ∈ speeds := by
  simp [groups]

theorem groups_nodup (speeds : List ℚ) : (groups speeds).Nodup := by
  unfold groups
  rw [List.nodup_reverse]
  exact List.nodup_dedup _

theorem mapM_mem {α β ε : Type} (f : α → Except ε β) : ∀ (l : List α) (r : List β), l.mapM f = .ok r →
    List.Forall₂ (fun a b => f a = .ok b) l r := by
  intro l
  induction l with
  | nil =>
    intro r h
    rw [List.mapM_nil] at h
    cases Except.ok.inj h
    exact .nil
  | cons a t ih =>
    intro r h
    rw [List.mapM_cons] at h
    rcases ha : f a with e | x
    · rw [ha] at h; cases h
    · rw [ha] at h
      rcases ht : t.mapM f with e | xs
      · rw [ht] at h; cases h
      · rw [ht] at h
        have h := Except.ok.inj h
        subst h
        exact .cons ha (ih _ ht)

theorem mapM_error {α β ε : Type} (f : α → Except ε β) : ∀ (l : List α) (e : ε), l.mapM f = .error e →
    ∃ a ∈ l, f a = .error e := by
  intro l
  induction l with
  | nil => intro e h; rw [List.mapM_nil] at h; cases h
  | cons a t ih =>
    intro e h
    rw [List.mapM_cons] at h
    rcases ha : f a with e' | x
    · rw [ha] at h
      cases Except.error.inj h
      exact ⟨a, by simp, ha⟩
    · rw [ha] at h
      rcases ht : t.mapM f with e' | xs
      · rw [ht] at h
        cases Except.error.inj h
        obtain ⟨b, hb, hf⟩ := ih _ ht
        exact ⟨b, by simp [hb], hf⟩
      · rw [ht] at h; cases h

/-! ## Charts that show rows -/

/-- The chart is made of the rows, points of equal rate in the order of the rows. -/
structure Exact (u : ChartUnits) (rows : List Row) (d : Data) : Prop where
  order : d.curves.Pairwise fun a b => a.speed < b.speed
  speeds : ∀ s, (∃ c ∈ d.curves, c.speed = s) ↔ ∃ row ∈ rows, row.speed = s
  points : ∀ c ∈ d.curves, c.pts = ((atSpeed rows c.speed).map (Row.point u)).insertionSort (fun a b => a.rate ≤ b.rate)

theorem Exact.shows {u : ChartUnits} {rows : List Row} {d : Data} (h : Exact u rows d) : Shows u rows d where
  order := h.order
  speeds := h.speeds
  points := by
    intro c hc
    rw [h.points c hc]
    exact ⟨List.perm_insertionSort _ _, List.pairwise_insertionSort _ _⟩

theorem curve_ext {a b : Curve} (h1 : a.speed = b.speed) (h2 : a.pts = b.pts) : a = b := by
  cases a; cases b
  simp only [Curve.pts, List.cons.injEq] at h1 h2
  obtain ⟨rfl, rfl⟩ := h2
  cases h1
  rfl

theorem sorted_unique {a b : List Curve} (ha : a.Pairwise fun x y => x.speed < y.speed)
    (hb : b.Pairwise fun x y => x.speed < y.speed) (h : ∀ c, c ∈ a ↔ c ∈ b) : a = b := by
  have na : a.Nodup := ha.imp fun {x y} hxy e => absurd (e ▸ hxy) (lt_irrefl _)
  have nb : b.Nodup := hb.imp fun {x y} hxy e => absurd (e ▸ hxy) (lt_irrefl _)
  have hp := (List.perm_ext_iff_of_nodup na nb).2 h
  exact List.Perm.eq_of_pairwise (fun x y _ _ hxy hyx => absurd hxy (not_lt.2 hyx.le)) ha hb hp

theorem mem_of_points {d e : Data} (P : ℚ → List Pt)
    (hd : ∀ c ∈ d.curves, c.pts = P c.speed) (he : ∀ c ∈ e.curves, c.pts = P c.speed)
    (hs : ∀ s, (∃ c ∈ d.curves, c.speed = s) → ∃ c ∈ e.curves, c.speed = s) : ∀ c ∈ d.curves, c ∈ e.curves := by
  intro c hc
  obtain ⟨c', hc', hsp⟩ := hs c.speed ⟨c, hc, rfl⟩
  have : c = c' := curve_ext hsp.symm (by rw [hd c hc, he c' hc', hsp])
  rw [this]; exact hc'

theorem exact_unique {u : ChartUnits} {rows : List Row} {d e : Data} (hd : Exact u rows d) (he : Exact u rows e)
    (hm : d.margin = e.margin) : d = e := by
  have : d.curves = e.curves := by
    apply sorted_unique hd.order he.order
    intro c
    constructor
    · exact mem_of_points (fun s => ((atSpeed rows s).map (Row.point u)).insertionSort (fun a b => a.rate ≤ b.rate))
        hd.points he.points (fun s h => (he.speeds s).2 ((hd.speeds s).1 h)) c
    · exact mem_of_points (fun s => ((atSpeed rows s).map (Row.point u)).insertionSort (fun a b => a.rate ≤ b.rate))
        he.points hd.points (fun s h => (hd.speeds s).2 ((he.speeds s).1 h)) c
  cases d; cases e
  simp only at this hm
  rw [this, hm]

/-- Curves built for different speeds, sorted. -/
theorem exact_make {u : ChartUnits} {rows : List Row} {cs : List Curve} {margin : Option ℚ}
    (hn : (cs.map (·.speed)).Nodup) (hs : ∀ s, s ∈ cs.map (·.speed) ↔ ∃ row ∈ rows, row.speed = s)
    (hp : ∀ c ∈ cs, c.pts = ((atSpeed rows c.speed).map (Row.point u)).insertionSort (fun a b => a.rate ≤ b.rate)) :
    Exact u rows (Data.make cs margin) := by
  have hperm := List.perm_insertionSort (fun (a b : Curve) => a.speed ≤ b.speed) cs
  refine ⟨?_, ?_, ?_⟩
  · have h1 := List.pairwise_insertionSort (fun (a b : Curve) => a.speed ≤ b.speed) cs
    have h2 : ((cs.insertionSort (fun a b => a.speed ≤ b.speed)).map (·.speed)).Nodup :=
      (hperm.map _).nodup_iff.2 hn
    have h3 := List.pairwise_map.1 h2
    exact h1.imp₂ (fun {a b} h h' => lt_of_le_of_ne h h') h3
  · intro s
    rw [← hs s]
    constructor
    · rintro ⟨c, hc, rfl⟩
      exact List.mem_map.2 ⟨c, hperm.mem_iff.1 hc, rfl⟩
    · intro h
      obtain ⟨c, hc, rfl⟩ := List.mem_map.1 h
      exact ⟨c, hperm.mem_iff.2 hc, rfl⟩
  · intro c hc
    exact hp c (hperm.mem_iff.1 hc)

/-- The outcome that reading rows must have. -/
def Outcome (u : ChartUnits) (rows : List Row) (margin : Option ℚ) (res : Except CErr Data) : Prop :=
  (Fits u rows ∧ ∃ d, res = .ok d ∧ Exact u rows d ∧ d.margin = margin) ∨ (¬ Fits u rows ∧ res = .error .validation)

theorem outcome_unique {u : ChartUnits} {rows : List Row} {margin : Option ℚ} {a b : Except CErr Data}
    (ha : Outcome u rows margin a) (hb : Outcome u rows margin b) : a = b := by
  rcases ha with ⟨f, d, rfl, ed, md⟩ | ⟨f, rfl⟩
  · rcases hb with ⟨-, e, rfl, ee, me⟩ | ⟨g, rfl⟩
    · rw [exact_unique ed ee (md.trans me.symm)]
    · exact absurd f g
  · rcases hb with ⟨g, -⟩ | ⟨-, rfl⟩
    · exact absurd g f
    · rfl

/-- Building one curve for each of the different speeds has the right outcome. -/
theorem outcome_build (u : ChartUnits) (rows : List Row) (margin : Option ℚ) (speeds : List ℚ) (hn : speeds.Nodup)
    (hs : ∀ s, s ∈ speeds ↔ ∃ row ∈ rows, row.speed = s) :
    Outcome u rows margin ((speeds.mapM fun s => build u s (atSpeed rows s)) >>= fun cs => .ok (Data.make cs margin)) := by
  have hfit : (∀ s ∈ speeds, ∃ c, build u s (atSpeed rows s) = .ok c) ↔ Fits u rows := by
    constructor
    · intro h row hr
      obtain ⟨h1, h2⟩ := build_total.1 (h row.speed ((hs _).2 ⟨row, hr, rfl⟩))
      exact ⟨h2, h1 row (by simp [atSpeed, hr])⟩
    · intro h s hm
      obtain ⟨row, hr, rfl⟩ := (hs s).1 hm
      refine build_total.2 ⟨fun row' hr' => ?_, (h row hr).1⟩
      exact (h row' (List.mem_filter.1 hr').1).2
  rcases hres : speeds.mapM (fun s => build u s (atSpeed rows s)) with e | cs
  · obtain ⟨s, hm, he⟩ := mapM_error _ _ _ hres
    have := build_error he
    subst this
    refine Or.inr ⟨fun hf => ?_, rfl⟩
    obtain ⟨c, hc⟩ := hfit.2 hf s hm
    rw [hc] at he; cases he
  · have hF := mapM_mem _ _ _ hres
    have hsp : cs.map (·.speed) = speeds := by
      clear hres hfit hs hn
      induction hF with
      | nil => rfl
      | cons h _ ih => rw [List.map_cons, ih, (build_ok h).1]
    refine Or.inl ⟨hfit.1 ?_, Data.make cs margin, rfl, exact_make ?_ ?_ ?_, rfl⟩
    · intro s hm
      obtain ⟨i, hi, rfl⟩ := List.getElem_of_mem hm
      have hl := hF.length_eq
      exact ⟨cs[i], List.forall₂_iff_get.1 hF |>.2 i hi (hl ▸ hi)⟩
    · rw [hsp]; exact hn
    · rw [hsp]; exact hs
    · intro c hc
      obtain ⟨i, hi, rfl⟩ := List.getElem_of_mem hc
      have hl := hF.length_eq
      have hb := build_ok (List.forall₂_iff_get.1 hF |>.2 i (hl ▸ hi) hi)
      simp only [List.get_eq_getElem] at hb
      rw [hb.2, hb.1]

theorem readVariable_outcome {r : Reader} {u : ChartUnits} {m : Memory} {rows : List Row} (margin : Option ℚ)
    (h : Lists r m rows) : Outcome u rows margin (readVariable r u m margin) := by
  unfold readVariable
  rw [if_pos h.exact.1]
  obtain ⟨frame, hf⟩ := frame_total m.headers fun g hg => (h.others g hg).imp fun xs hx => holds_float hx
  have hcol := fun g => (frame_column m.headers frame hf g).1
  rw [hf]
  simp only [Bind.bind, Except.bind]
  rw [hcol _ h.exact.1, holds_float h.speed]
  dsimp only
  have hg : ∀ s, groupCurve u frame (rows.map (·.speed)) s = build u s (atSpeed rows s) := by
    intro s
    unfold groupCurve
    rw [hcol _ h.exact.2.1, hcol _ h.exact.2.2.1, hcol _ h.exact.2.2.2, holds_float h.rate, holds_float h.head,
      holds_float h.eff]
    simp only [Bind.bind, Except.bind]
    rw [inGroup_rows, inGroup_rows, inGroup_rows, makeCurve_rows]
  have hfun : groupCurve u frame (rows.map (·.speed)) = fun s => build u s (atSpeed rows s) := funext hg
  rw [hfun]
  have := outcome_build u rows margin (groups (rows.map (·.speed))) (groups_nodup _)
    (by intro s; rw [mem_groups]; simp)
  simpa only [Bind.bind, Except.bind] using this

/-! ## The theorems about files -/

/-- **A chart file** with these rows is accepted exactly when every speed has at least two rows and no efficiency exceeds
one; the chart then has one curve for each speed, sorted by speed, with exactly the rows of that speed in the units of the
calculation, sorted by rate. -/
theorem C103_file (r : Reader) (u : ChartUnits) (m : Memory) (margin : Option ℚ) (rows : List Row) (h : Lists r m rows) :
    (¬ Fits u rows → readVariable r u m margin = .error .validation) ∧
    (Fits u rows → ∃ d, readVariable r u m margin = .ok d ∧ Shows u rows d ∧ d.margin = margin) := by
  rcases readVariable_outcome (u := u) margin h with ⟨f, d, hd, he, hm⟩ | ⟨f, he⟩
  · exact ⟨fun n => absurd f n, fun _ => ⟨d, hd, he.shows, hm⟩⟩
  · exact ⟨fun _ => he, fun p => absurd p f⟩

/-- No two rows of the same speed and the same rate. -/
def Distinct (rows : List Row) : Prop := ∀ s, ((atSpeed rows s).map (·.rate)).Nodup

theorem sort_perm {a b : List Row} (u : ChartUnits) (hp : a.Perm b) (hn : (a.map (·.rate)).Nodup) :
    (a.map (Row.point u)).insertionSort (fun p q => p.rate ≤ q.rate) =
      (b.map (Row.point u)).insertionSort (fun p q => p.rate ≤ q.rate) := by
  have h1 := List.perm_insertionSort (fun (p q : Pt) => p.rate ≤ q.rate) (a.map (Row.point u))
  have h2 := List.perm_insertionSort (fun (p q : Pt) => p.rate ≤ q.rate) (b.map (Row.point u))
  have hp' := h1.trans ((hp.map (Row.point u)).trans h2.symm)
  have hr : ((a.map (Row.point u)).map (·.rate)).Nodup := by
    rw [List.map_map]; exact hn
  have hinj : ∀ x ∈ a.map (Row.point u), ∀ y ∈ a.map (Row.point u), x.rate = y.rate → x = y :=
    fun x hx y hy he => List.inj_on_of_nodup_map hr hx hy he
  refine List.Perm.eq_of_pairwise ?_ (List.pairwise_insertionSort _ _) (List.pairwise_insertionSort _ _) hp'
  intro x y hx hy hxy hyx
  exact hinj x (h1.mem_iff.1 hx) y (h1.mem_iff.1 (hp'.mem_iff.2 hy)) (le_antisymm hxy hyx)

/-- **The order of the rows** does not matter, as long as no speed has two rows of the same rate. -/
theorem C103_row_order (r : Reader) (u : ChartUnits) (m m' : Memory) (margin : Option ℚ) (rows rows' : List Row)
    (h : Lists r m rows) (h' : Lists r m' rows') (hp : rows.Perm rows') (hd : Distinct rows) :
    readVariable r u m margin = readVariable r u m' margin := by
  refine outcome_unique (readVariable_outcome margin h) ?_
  have hat : ∀ s, (atSpeed rows s).Perm (atSpeed rows' s) := fun s => hp.filter _
  have hfit : Fits u rows ↔ Fits u rows' := by
    constructor
    · intro hf row hr
      have := hf row (hp.mem_iff.2 hr)
      rw [(hat row.speed).length_eq] at this
      exact this
    · intro hf row hr
      have := hf row (hp.mem_iff.1 hr)
      rw [← (hat row.speed).length_eq] at this
      exact this
  rcases readVariable_outcome (u := u) margin h' with ⟨f, d, he, hx, hm⟩ | ⟨f, he⟩
  · refine Or.inl ⟨hfit.2 f, d, he, ⟨hx.order, ?_, ?_⟩, hm⟩
    · intro s
      rw [hx.speeds s]
      exact ⟨fun ⟨row, hr, e⟩ => ⟨row, hp.mem_iff.2 hr, e⟩, fun ⟨row, hr, e⟩ => ⟨row, hp.mem_iff.1 hr, e⟩⟩
    · intro c hc
      rw [hx.points c hc]
      exact (sort_perm u (hat c.speed) (hd c.speed)).symm
  · exact Or.inr ⟨fun hf => f (hfit.1 hf), he⟩

/-! ## Curves in the YAML file -/

/-- The rows that a curve in the YAML file stands for. -/
def curveRows (s : ℚ) (points : List (ℚ × ℚ × ℚ)) : List Row := points.map fun p => ⟨s, p.1, p.2.1, p.2.2⟩

/-- The curve with these points as it is written in the YAML file. -/
def written (c : ℚ × List (ℚ × ℚ × ℚ)) : YamlCurve :=
  ⟨c.1, c.2.map (·.1), c.2.map (·.2.1), c.2.map (·.2.2)⟩

/-- The rows of all curves, one curve after the other. -/
def allRows (curves : List (ℚ × List (ℚ × ℚ × ℚ))) : List Row := curves.flatMap fun c => curveRows c.1 c.2

theorem atSpeed_other {s t : ℚ} (h : s ≠ t) (points : List (ℚ × ℚ × ℚ)) : atSpeed (curveRows s points) t = [] := by
  unfold atSpeed curveRows
  rw [List.filter_eq_nil_iff]
  intro row hr
  obtain ⟨p, -, rfl⟩ := List.mem_map.1 hr
  simpa using h

theorem atSpeed_same (s : ℚ) (points : List (ℚ × ℚ × ℚ)) : atSpeed (curveRows s points) s = curveRows s points := by
  unfold atSpeed curveRows
  rw [List.filter_eq_self]
  intro row hr
  obtain ⟨p, -, rfl⟩ := List.mem_map.1 hr
  simp

theorem atSpeed_append (a b : List Row) (s : ℚ) : atSpeed (a ++ b) s = atSpeed a s ++ atSpeed b s := by
  simp [atSpeed]

theorem atSpeed_allRows : ∀ (curves : List (ℚ × List (ℚ × ℚ × ℚ))), (curves.map (·.1)).Nodup →
    ∀ c ∈ curves, atSpeed (allRows curves) c.1 = curveRows c.1 c.2 := by
  have hnone : ∀ (curves : List (ℚ × List (ℚ × ℚ × ℚ))) (s : ℚ), s ∉ curves.map (·.1) → atSpeed (allRows curves) s = [] := by
    intro curves s
    induction curves with
    | nil => intro _; rfl
    | cons a t ih =>
      intro hn
      simp only [List.map_cons, List.mem_cons, not_or] at hn
      simp only [allRows, List.flatMap_cons, atSpeed_append]
      rw [atSpeed_other fun e => hn.1 e.symm]
      exact ih hn.2
  intro curves
  induction curves with
  | nil => intro _ c hc; exact absurd hc (by simp)
  | cons a t ih =>
    intro hn c hc
    simp only [List.map_cons, List.nodup_cons] at hn
    simp only [allRows, List.flatMap_cons, atSpeed_append]
    rcases List.mem_cons.1 hc with rfl | hc
    · rw [atSpeed_same]
      have := hnone t c.1 hn.1
      unfold allRows at this
      rw [this, List.append_nil]
    · have hne : a.1 ≠ c.1 := fun e => hn.1 (e ▸ List.mem_map.2 ⟨c, hc, rfl⟩)
      rw [atSpeed_other hne, List.nil_append]
      exact ih hn.2 c hc

theorem mapM_map {α β γ ε : Type} (g : α → β) (f : β → Except ε γ) (l : List α) :
    (l.map g).mapM f = l.mapM fun a => f (g a) := by
  induction l with
  | nil => rfl
  | cons a t ih => rw [List.map_cons, List.mapM_cons, List.mapM_cons, ih]

theorem mapM_congr {α β ε : Type} {f g : α → Except ε β} {l : List α} (h : ∀ a ∈ l, f a = g a) : l.mapM f = l.mapM g := by
  induction l with
  | nil => rfl
  | cons a t ih => rw [List.mapM_cons, List.mapM_cons, h a (by simp), ih fun b hb => h b (by simp [hb])]

theorem readYaml_outcome (u : ChartUnits) (margin : Option ℚ) (curves : List (ℚ × List (ℚ × ℚ × ℚ)))
    (hn : (curves.map (·.1)).Nodup) (hne : ∀ c ∈ curves, c.2 ≠ []) :
    Outcome u (allRows curves) margin (readYaml u (curves.map written) margin) := by
  have hs : ∀ s, s ∈ curves.map (·.1) ↔ ∃ row ∈ allRows curves, row.speed = s := by
    intro s
    constructor
    · intro hm
      obtain ⟨c, hc, rfl⟩ := List.mem_map.1 hm
      cases hp : c.2 with
      | nil => exact absurd hp (hne c hc)
      | cons p t =>
        refine ⟨⟨c.1, p.1, p.2.1, p.2.2⟩, List.mem_flatMap.2 ⟨c, hc, ?_⟩, rfl⟩
        rw [hp]; simp [curveRows]
    · rintro ⟨row, hr, rfl⟩
      obtain ⟨c, hc, hrc⟩ := List.mem_flatMap.1 hr
      obtain ⟨p, -, rfl⟩ := List.mem_map.1 hrc
      exact List.mem_map.2 ⟨c, hc, rfl⟩
  have ho := outcome_build u (allRows curves) margin (curves.map (·.1)) hn hs
  rw [mapM_map] at ho
  unfold readYaml
  rw [mapM_map]
  have : (curves.mapM fun c => makeCurve u (written c).speed (written c).rate (written c).head (written c).eff) =
      curves.mapM fun c => build u c.1 (atSpeed (allRows curves) c.1) := by
    apply mapM_congr
    intro c hc
    rw [atSpeed_allRows curves hn c hc, ← makeCurve_rows]
    simp only [written, curveRows, List.map_map]
    rfl
  rw [this]
  exact ho

/-- **File or YAML.** Curves of different speeds give the same chart, or the same refusal, whether they are written in
the YAML file or listed one after the other in a chart file. -/
theorem C103_yaml (r : Reader) (u : ChartUnits) (m : Memory) (margin : Option ℚ) (curves : List (ℚ × List (ℚ × ℚ × ℚ)))
    (hn : (curves.map (·.1)).Nodup) (hne : ∀ c ∈ curves, c.2 ≠ []) (h : Lists r m (allRows curves)) :
    readYaml u (curves.map written) margin = readVariable r u m margin :=
  outcome_unique (readYaml_outcome u margin curves hn hne) (readVariable_outcome margin h)

/-! ## One speed -/

/-- The file has no column with this header, up to case. -/
def NoColumn (r : Reader) (m : Memory) (header : String) : Prop := ∀ g ∈ m.headers, r.lower g ≠ r.lower header

theorem noColumn_float {r : Reader} {m : Memory} {header : String} (h : NoColumn r m header) :
    floatColumn r m header = .error (.resource (.headerNotFound header)) := by
  unfold floatColumn getColumn headerIndex
  have : (m.headers.findIdx? fun g => decide (r.lower g = r.lower header)) = none := by
    rw [List.findIdx?_eq_none_iff]
    intro g hg
    simpa using h g hg
  rw [this]

theorem readSingle_rows {r : Reader} {u : ChartUnits} {m : Memory} {margin : Option ℚ} {rows : List Row} {s : ℚ}
    (hs : singleSpeed r m = .ok s) (hr : Holds r m "RATE" (rows.map (·.rate))) (hh : Holds r m "HEAD" (rows.map (·.head)))
    (he : Holds r m "EFFICIENCY" (rows.map (·.eff))) :
    readSingle r u m margin = (build u s rows >>= fun c => .ok ⟨[c], margin⟩) := by
  unfold readSingle
  rw [hs, holds_float hr, holds_float hh, holds_float he]
  simp only [Bind.bind, Except.bind]
  rw [makeCurve_rows]
  rfl

/-- **A single speed chart file** has one curve with all its rows. The speed is that of the rows; without a column for it
the speed is 1. Rows of different speeds, or a column of speeds without rows, are refused. -/
theorem C103_single (r : Reader) (u : ChartUnits) (m : Memory) (margin : Option ℚ) (rows : List Row) (s : ℚ)
    (hr : Holds r m "RATE" (rows.map (·.rate))) (hh : Holds r m "HEAD" (rows.map (·.head)))
    (he : Holds r m "EFFICIENCY" (rows.map (·.eff)))
    (hs : (NoColumn r m "SPEED" ∧ s = 1) ∨
      (Holds r m "SPEED" (rows.map (·.speed)) ∧ rows ≠ [] ∧ ∀ row ∈ rows, row.speed = s)) :
    (¬ (2 ≤ rows.length ∧ ∀ row ∈ rows, 0 ≤ (row.point u).eff ∧ (row.point u).eff ≤ 1) →
      readSingle r u m margin = .error .validation) ∧
    (2 ≤ rows.length ∧ (∀ row ∈ rows, 0 ≤ (row.point u).eff ∧ (row.point u).eff ≤ 1) →
      ∃ c, readSingle r u m margin = .ok ⟨[c], margin⟩ ∧ c.speed = s ∧ c.pts.Perm (rows.map (Row.point u)) ∧
        c.pts.Pairwise fun p q => p.rate ≤ q.rate) := by
  have hsp : singleSpeed r m = .ok s := by
    unfold singleSpeed
    rcases hs with ⟨h, rfl⟩ | ⟨h, hne, hall⟩
    · rw [noColumn_float h]
    · rw [holds_float h]
      cases rows with
      | nil => exact absurd rfl hne
      | cons row t =>
        simp only [List.map_cons]
        have h0 := hall row (by simp)
        rw [if_pos, h0]
        intro x hx
        obtain ⟨row', hm, rfl⟩ := List.mem_map.1 hx
        rw [hall row' (by simp [hm]), h0]
  rw [readSingle_rows hsp hr hh he]
  constructor
  · intro hn
    rcases hb : build u s rows with e | c
    · rw [build_error hb]; rfl
    · exact absurd ((build_total.1 ⟨c, hb⟩).symm) hn
  · intro h
    obtain ⟨c, hc⟩ := build_total.2 h.symm
    obtain ⟨h1, h2⟩ := build_ok hc
    refine ⟨c, by rw [hc]; rfl, h1, ?_, ?_⟩
    · rw [h2]; exact List.perm_insertionSort _ _
    · rw [h2]; exact List.pairwise_insertionSort _ _

/-- **Different speeds** in a single speed chart file are refused, and so is a column of speeds without rows. -/
theorem C103_single_refused (r : Reader) (u : ChartUnits) (m : Memory) (margin : Option ℚ) (speeds : List ℚ)
    (hs : Holds r m "SPEED" speeds) (hd : speeds = [] ∨ ∃ a ∈ speeds, ∃ b ∈ speeds, a ≠ b) :
    readSingle r u m margin = .error (.column "SPEED") := by
  have : singleSpeed r m = .error (.column "SPEED") := by
    unfold singleSpeed
    rw [holds_float hs]
    cases speeds with
    | nil => rfl
    | cons s t =>
      dsimp only
      rw [if_neg]
      intro hall
      rcases hd with h | ⟨a, ha, b, hb, hne⟩
      · cases h
      · have hall' : ∀ x ∈ s :: t, x = s := by
          intro x hx
          rcases List.mem_cons.1 hx with rfl | hx
          · rfl
          · exact hall x hx
        exact hne ((hall' a ha).trans (hall' b hb).symm)
  unfold readSingle
  rw [this]
  rfl

/-! ## What is refused for several speeds -/

/-- **Refusals.** A file for several speeds is refused unless it has the header SPEED spelled exactly so; a column of any
name that holds something that is not a number makes the whole file fail. -/
theorem C103_refused (r : Reader) (u : ChartUnits) (m : Memory) (margin : Option ℚ) :
    ("SPEED" ∉ m.headers → readVariable r u m margin = .error (.column "SPEED")) ∧
    ("SPEED" ∈ m.headers → (∃ h ∈ m.headers, ¬ ∃ xs, floatColumn r m h = .ok xs) →
      ∃ h ∈ m.headers, ∃ e, floatColumn r m h = .error e ∧ readVariable r u m margin = .error e) := by
  constructor
  · intro h
    unfold readVariable
    rw [if_neg h]
  · intro hsp hbad
    have key : ∀ hs : List String, (∃ h ∈ hs, ¬ ∃ xs, floatColumn r m h = .ok xs) →
        ∃ h ∈ hs, ∃ e, floatColumn r m h = .error e ∧ readFrame r m hs = .error e := by
      intro hs
      induction hs with
      | nil => rintro ⟨h, hm, -⟩; exact absurd hm (by simp)
      | cons g t ih =>
        rintro ⟨h, hm, hno⟩
        rcases hg : floatColumn r m g with e | xs
        · exact ⟨g, by simp, e, hg, by simp only [readFrame, hg]⟩
        · rcases List.mem_cons.1 hm with rfl | hm
          · exact absurd ⟨xs, hg⟩ hno
          · obtain ⟨h', hm', e, he, hf⟩ := ih ⟨h, hm, hno⟩
            exact ⟨h', by simp [hm'], e, he, by simp only [readFrame, hg, hf]⟩
    obtain ⟨h, hm, e, he, hf⟩ := key m.headers hbad
    refine ⟨h, hm, e, he, ?_⟩
    unfold readVariable
    rw [if_pos hsp, hf]
    rfl

theorem column_bad {r : Reader} {m : Memory} {header : String} {col : List Cell} (h : Column r m header col) {c : Cell}
    (hc : c ∈ col) (hn : ∀ x, ¬ Written r.parse c x) : floatColumn r m header = .error (.column header) := by
  obtain ⟨i, h', h1, h2, h3, h4⟩ := h
  unfold floatColumn getColumn
  rw [headerIndex_some h1 h2 h3]
  dsimp only
  rw [h4]
  dsimp only
  cases hx : numbers r.parse col with
  | none => rfl
  | some xs =>
    have hf := (numbers_written _ _ _).2 hx
    exfalso
    clear hx h4
    induction hf with
    | nil => simp at hc
    | cons hw _ ih =>
      rcases List.mem_cons.1 hc with rfl | hc
      · exact hn _ hw
      · exact ih hc

/-- **Cells that are not numbers.** No chart is made of a file with a cell that is not a number: in any column for several
speeds, in the four columns of the chart for one speed. -/
theorem C103_not_a_number (r : Reader) (u : ChartUnits) (m : Memory) (margin : Option ℚ) (header : String)
    (col : List Cell) (h : Column r m header col) (c : Cell) (hc : c ∈ col) (hn : ∀ x, ¬ Written r.parse c x) :
    (header ∈ m.headers → ¬ ∃ d, readVariable r u m margin = .ok d) ∧
    (header ∈ ["SPEED", "RATE", "HEAD", "EFFICIENCY"] → ¬ ∃ d, readSingle r u m margin = .ok d) := by
  have hbad := column_bad h hc hn
  constructor
  · rintro hm ⟨d, hd⟩
    by_cases hs : "SPEED" ∈ m.headers
    · obtain ⟨_, _, e, _, he⟩ := (C103_refused r u m margin).2 hs ⟨header, hm, by rintro ⟨xs, hx⟩; rw [hbad] at hx; cases hx⟩
      rw [he] at hd; cases hd
    · rw [(C103_refused r u m margin).1 hs] at hd; cases hd
  · rintro hm ⟨d, hd⟩
    unfold readSingle at hd
    rcases hsp : singleSpeed r m with e | s
    · rw [hsp] at hd; cases hd
    rcases he : floatColumn r m "EFFICIENCY" with e | es
    · rw [hsp, he] at hd; cases hd
    rcases hr : floatColumn r m "RATE" with e | rs
    · rw [hsp, he, hr] at hd; cases hd
    rcases hh : floatColumn r m "HEAD" with e | hds
    · rw [hsp, he, hr, hh] at hd; cases hd
    simp only [List.mem_cons, List.not_mem_nil, or_false] at hm
    rcases hm with rfl | rfl | rfl | rfl
    · unfold singleSpeed at hsp
      rw [hbad] at hsp
      cases hsp
    · rw [hbad] at hr; cases hr
    · rw [hbad] at hh; cases hh
    · rw [hbad] at he; cases he

/-- **Finding**: a file for several speeds without the header RATE, or with another spelling of it such as `Rate`, fails
with a `KeyError` of pandas instead of an error about the file; a single speed chart file may spell it in any case. -/
theorem C103_key_error (r : Reader) (u : ChartUnits) (m : Memory) (margin : Option ℚ) (speeds : List ℚ)
    (hsp : "SPEED" ∈ m.headers) (hs : Holds r m "SPEED" speeds) (hne : speeds ≠ [])
    (hall : ∀ h ∈ m.headers, ∃ xs, Holds r m h xs) (hno : "RATE" ∉ m.headers) :
    readVariable r u m margin = .error (.keyError "RATE") := by
  unfold readVariable
  rw [if_pos hsp]
  obtain ⟨frame, hf⟩ := frame_total m.headers fun g hg => (hall g hg).imp fun xs hx => holds_float hx
  have hcol := frame_column m.headers frame hf
  rw [hf]
  simp only [Bind.bind, Except.bind]
  rw [(hcol _).1 hsp, holds_float hs]
  dsimp only
  have hg : groups speeds ≠ [] := by
    cases speeds with
    | nil => exact absurd rfl hne
    | cons s t =>
      intro h
      have := (mem_groups (s :: t) s).2 (by simp)
      rw [h] at this
      exact absurd this (by simp)
  cases hgs : groups speeds with
  | nil => exact absurd hgs hg
  | cons s t =>
    rw [List.mapM_cons]
    have : groupCurve u frame speeds s = .error (.keyError "RATE") := by
      unfold groupCurve
      rw [(hcol _).2 hno]
      rfl
    rw [this]
    rfl

/-! ## The results -/

/-- What the results allow for a point. -/
def Allowed (p : Pt) : Prop := 0 ≤ p.rate ∧ 0 ≤ p.head ∧ 0 < p.eff ∧ p.eff ≤ 1

theorem fieldsOk_iff (p : Pt) : fieldsOk p = true ↔ Allowed p := by
  simp [fieldsOk, Allowed, and_assoc]

theorem every_some {α β : Type} (f : α → Option β) : ∀ (l : List α) (r : List β), every f l = some r ↔ l.map f = r.map some := by
  intro l
  induction l with
  | nil => intro r; cases r <;> simp [every]
  | cons a t ih =>
    intro r
    unfold every
    rcases ha : f a with _ | b
    · cases r <;> simp [ha]
    · dsimp only
      rcases ht : every f t with _ | bs
      · dsimp only
        cases r with
        | nil => simp
        | cons c cs =>
          simp only [List.map_cons, List.cons.injEq, reduceCtorEq, false_iff, not_and]
          intro _ h
          rw [(ih cs).2 h] at ht
          cases ht
      · dsimp only
        cases r with
        | nil => simp
        | cons c cs =>
          have := ih cs
          rw [ht] at this
          simp only [Option.some.injEq] at this
          simp only [Option.some.injEq, List.cons.injEq, List.map_cons, ha, this]

/-- The curve as it is, for the results. -/
def plain (c : Curve) : CurveDTO := ⟨c.speed, c.pts⟩

theorem curveDTO_some {c : Curve} (hs : c.pts.Pairwise fun p q => p.rate ≤ q.rate) (x : CurveDTO) :
    curveDTO c = some x ↔ x = plain c ∧ 0 ≤ c.speed ∧ (∀ p ∈ c.pts, Allowed p) ∧ 2 ≤ c.pts.length := by
  unfold curveDTO
  have hsort : c.pts.insertionSort (fun a b => a.rate ≤ b.rate) = c.pts := hs.insertionSort_eq
  have hall : c.pts.all fieldsOk = true ↔ ∀ p ∈ c.pts, Allowed p := by
    rw [List.all_eq_true]
    exact forall₂_congr fun p _ => fieldsOk_iff p
  by_cases h : 0 ≤ c.speed ∧ c.pts.all fieldsOk = true ∧ 1 < c.pts.length
  · rw [if_pos h, hsort]
    rw [hall] at h
    constructor
    · intro e
      exact ⟨(Option.some.inj e).symm, h.1, h.2.1, h.2.2⟩
    · rintro ⟨rfl, -⟩
      rfl
  · rw [if_neg h]
    rw [hall] at h
    constructor
    · intro e; cases e
    · rintro ⟨-, h1, h2, h3⟩
      exact absurd ⟨h1, h2, h3⟩ h

theorem every_curves (cs : List Curve) (hs : ∀ c ∈ cs, c.pts.Pairwise fun p q => p.rate ≤ q.rate) (xs : List CurveDTO) :
    every curveDTO cs = some xs ↔
      xs = cs.map plain ∧ ∀ c ∈ cs, 0 ≤ c.speed ∧ (∀ p ∈ c.pts, Allowed p) ∧ 2 ≤ c.pts.length := by
  rw [every_some]
  induction cs generalizing xs with
  | nil => cases xs <;> simp
  | cons c t ih =>
    cases xs with
    | nil => simp
    | cons x l =>
      simp only [List.map_cons, List.cons.injEq, List.mem_cons, forall_eq_or_imp]
      rw [curveDTO_some (hs c (by simp)), ih fun a ha => hs a (by simp [ha])]
      constructor
      · rintro ⟨⟨h1, h2⟩, h3, h4⟩; exact ⟨⟨h1, h3⟩, h2, h4⟩
      · rintro ⟨⟨h1, h3⟩, h2, h4⟩; exact ⟨⟨h1, h2⟩, h3, h4⟩

/-- The point of the control margin line on a curve: `k` of the way from the smallest to the largest rate, on the
curve. -/
def onLine (k : ℚ) (c : Curve) : Pt :=
  ⟨c.minRate + k * (c.maxRate - c.minRate), c.headAt (c.minRate + k * (c.maxRate - c.minRate)),
    c.effAt (c.minRate + k * (c.maxRate - c.minRate))⟩

theorem adjust_first {c : Curve} (hi : C56.Increasing c) (h2 : 2 ≤ c.pts.length) {k : ℚ} (h0 : 0 < k) (h1 : k < 1) :
    (c.adjust (some k)).first = onLine k c := by
  obtain ⟨a1, -, -, a4, -, a6⟩ := C56.C56_margin c hi h2 k h0 h1
  have hp := C56.C56_points _ a4 (c.adjust (some k)).first (C56.first_mem _)
  have hx := a6 (c.adjust (some k)).minRate le_rfl
  have hr : (c.adjust (some k)).first.rate = c.minRate + k * (c.maxRate - c.minRate) := a1
  have hm : (c.adjust (some k)).minRate = (c.adjust (some k)).first.rate := rfl
  rw [hm] at hx
  have e1 := hp.1.symm.trans hx.1
  have e2 := hp.2.symm.trans hx.2
  rw [hr] at e1 e2
  unfold onLine
  rw [← e1, ← e2, ← hr]

theorem exists_low (l : List Pt) (h : ∀ p ∈ l, 0 < p.eff) : ∃ lo : ℚ, 0 < lo ∧ ∀ p ∈ l, lo ≤ p.eff := by
  induction l with
  | nil => exact ⟨1, one_pos, by simp⟩
  | cons p t ih =>
    obtain ⟨lo, h1, h2⟩ := ih fun q hq => h q (by simp [hq])
    refine ⟨min lo p.eff, lt_min h1 (h p (by simp)), ?_⟩
    intro q hq
    rcases List.mem_cons.1 hq with rfl | hq
    · exact min_le_right _ _
    · exact (min_le_left _ _).trans (h2 q hq)

theorem onLine_allowed {c : Curve} (hi : C56.Increasing c) (ha : ∀ p ∈ c.pts, Allowed p) {k : ℚ} (h0 : 0 < k) :
    Allowed (onLine k c) := by
  have hs := C56.increasing_le hi
  have hfirst : Allowed c.first := ha _ (C56.first_mem c)
  have hle : c.minRate ≤ c.maxRate := C56.le_last hs _ (C56.first_mem c)
  have hmin : 0 ≤ c.minRate := hfirst.1
  obtain ⟨lo, hl, hlo⟩ := exists_low c.pts fun p hp => (ha p hp).2.2.1
  refine ⟨?_, ?_, ?_, ?_⟩
  · have := mul_nonneg h0.le (sub_nonneg.2 hle)
    show 0 ≤ c.minRate + k * (c.maxRate - c.minRate)
    linarith
  · have hmax : ∃ hi : ℚ, ∀ p ∈ c.pts, p.head ≤ hi := by
      clear hlo hi hs ha
      induction c.pts with
      | nil => exact ⟨0, by simp⟩
      | cons p t ih =>
        obtain ⟨b, hb⟩ := ih
        refine ⟨max b p.head, ?_⟩
        intro q hq
        rcases List.mem_cons.1 hq with rfl | hq
        · exact le_max_right _ _
        · exact (hb q hq).trans (le_max_left _ _)
    obtain ⟨b, hb⟩ := hmax
    exact ((C56.C56_range c 0 b _).1 fun p hp => ⟨(ha p hp).2.1, hb p hp⟩).1
  · exact lt_of_lt_of_le hl ((C56.C56_range c lo 1 _).2 fun p hp => ⟨hlo p hp, (ha p hp).2.2.2⟩).1
  · exact ((C56.C56_range c lo 1 _).2 fun p hp => ⟨hlo p hp, (ha p hp).2.2.2⟩).2

/-- The line of points in the results: one point for each curve, and none without a margin or without curves. -/
def shownLine (d : Data) : Option (List Pt) :=
  match d.margin with
  | none => none
  | some k => if 0 < k ∧ d.curves ≠ [] then some (d.curves.map (onLine k)) else none

/-- A chart can be shown in the results. -/
def Showable (cs : List Curve) : Prop := ∀ c ∈ cs, 0 ≤ c.speed ∧ ∀ p ∈ c.pts, Allowed p

theorem pointDTO_every (k : ℚ) (cs : List Curve) (m : Option ℚ)
    (hf : ∀ c ∈ cs, (c.adjust m).first = onLine k c) (line : List Pt) :
    every (fun c : Curve => pointDTO c.first) (cs.map (·.adjust m)) = some line ↔
      line = cs.map (onLine k) ∧ ∀ c ∈ cs, Allowed (onLine k c) := by
  rw [every_some]
  induction cs generalizing line with
  | nil => cases line <;> simp
  | cons c t ih =>
    cases line with
    | nil => simp
    | cons p l =>
      simp only [List.map_cons, List.cons.injEq, List.mem_cons, forall_eq_or_imp]
      rw [ih fun a ha => hf a (by simp [ha]), hf c (by simp)]
      have : pointDTO (onLine k c) = some p ↔ p = onLine k c ∧ Allowed (onLine k c) := by
        unfold pointDTO
        rw [← fieldsOk_iff]
        by_cases h : fieldsOk (onLine k c) = true
        · rw [if_pos h]
          simp [h, eq_comm]
        · rw [if_neg h]
          simp [h]
      rw [this]
      constructor
      · rintro ⟨⟨h1, h2⟩, h3, h4⟩; exact ⟨⟨h1, h3⟩, h2, h4⟩
      · rintro ⟨⟨h1, h3⟩, h2, h4⟩; exact ⟨⟨h1, h2⟩, h3, h4⟩

/-- **The chart in the results**: a chart of the user with a margin below one is shown exactly when its speeds, rates and
heads are not negative and its efficiencies are above zero and at most one. It then shows the curves without the margin
just as they are, and one point of the margin line for each curve, which lies on the curve. -/
theorem C103_report (d : Data) (hi : ∀ c ∈ d.curves, C56.Increasing c ∧ 2 ≤ c.pts.length)
    (hk : ∀ k, d.margin = some k → k < 1) (dto : ChartDTO) :
    chartDTO (.user d) = some dto ↔
      Showable d.curves ∧ dto = ⟨d.curves.map plain, shownLine d, d.margin, none, none⟩ := by
  have hs : ∀ c ∈ d.curves, c.pts.Pairwise fun p q => p.rate ≤ q.rate := fun c hc => C56.increasing_le (hi c hc).1
  have hshow : Showable d.curves ↔
      ∀ c ∈ d.curves, 0 ≤ c.speed ∧ (∀ p ∈ c.pts, Allowed p) ∧ 2 ≤ c.pts.length :=
    ⟨fun h c hc => ⟨(h c hc).1, (h c hc).2, (hi c hc).2⟩, fun h c hc => ⟨(h c hc).1, (h c hc).2.1⟩⟩
  have hcurves : every curveDTO d.curves = some (d.curves.map plain) ↔ Showable d.curves := by
    rw [every_curves _ hs, hshow]; simp
  have hnone : ¬ Showable d.curves → every curveDTO d.curves = none := by
    intro h
    rcases he : every curveDTO d.curves with _ | xs
    · rfl
    · exact absurd (hshow.2 ((every_curves _ hs xs).1 he).2) h
  -- without a line
  have plainCase : ∀ margin, marginLine (.user d) = some (margin, []) → margin = d.margin → shownLine d = none →
      (chartDTO (.user d) = some dto ↔
        Showable d.curves ∧ dto = ⟨d.curves.map plain, shownLine d, d.margin, none, none⟩) := by
    intro margin h1 h2 h3
    unfold chartDTO
    rw [h1, h3, h2]
    dsimp only [Domain.curves, designPoint]
    by_cases h : Showable d.curves
    · rw [hcurves.2 h]
      simp [h, eq_comm]
    · rw [hnone h]
      simp [h]
  rcases hm : d.margin with _ | k
  · have := plainCase none (by simp only [marginLine, hm]) hm.symm (by simp [shownLine, hm])
    rw [hm] at this
    exact this
  · by_cases h0 : 0 < k
    · have h1 := hk k hm
      have hf : ∀ c ∈ d.curves, (c.adjust d.margin).first = onLine k c := by
        intro c hc
        rw [hm]
        exact adjust_first (hi c hc).1 (hi c hc).2 h0 h1
      by_cases h : Showable d.curves
      · have hall : ∀ c ∈ d.curves, Allowed (onLine k c) := fun c hc => onLine_allowed (hi c hc).1 (h c hc).2 h0
        have hl := (pointDTO_every k d.curves d.margin hf _).2 ⟨rfl, hall⟩
        have hml : marginLine (.user d) = some (some k, d.curves.map (onLine k)) := by
          unfold marginLine Data.adjusted
          dsimp only
          rw [hl, hm]
          dsimp only
          rw [if_pos h0]
        unfold chartDTO
        rw [hml]
        dsimp only [Domain.curves, designPoint]
        rw [hcurves.2 h]
        dsimp only
        have : (if d.curves.map (onLine k) = [] then none else some (d.curves.map (onLine k))) = shownLine d := by
          unfold shownLine
          rw [hm]
          dsimp only
          by_cases he : d.curves = []
          · simp [he]
          · rw [if_neg (by simpa using he), if_pos ⟨h0, he⟩]
        rw [this]
        simp [h, eq_comm]
      · constructor
        · intro e
          exfalso
          unfold chartDTO at e
          rcases hml : marginLine (.user d) with _ | ⟨mg, line⟩
          · rw [hml] at e; cases e
          · rw [hml] at e
            dsimp only [Domain.curves] at e
            rw [hnone h] at e
            cases e
        · rintro ⟨h', -⟩
          exact absurd h' h
    · rw [← hm]
      exact plainCase (some k) (by simp only [marginLine, hm, if_neg h0]) hm.symm (by simp [shownLine, hm, h0])

/-- **Generic charts** in the results: the design point and the curves just as they are, no margin. -/
theorem C103_report_generic (rate head : ℚ) (cs : List Curve)
    (hi : ∀ c ∈ cs, (c.pts.Pairwise fun p q => p.rate ≤ q.rate) ∧ 2 ≤ c.pts.length) (dto : ChartDTO) :
    chartDTO (.generic rate head cs) = some dto ↔
      (Showable cs ∧ 0 ≤ rate ∧ 0 ≤ head) ∧ dto = ⟨cs.map plain, none, none, some rate, some head⟩ := by
  have hs := fun c hc => (hi c hc).1
  have hcurves := every_curves cs hs
  unfold chartDTO
  dsimp only [marginLine, Domain.curves, designPoint]
  by_cases h : Showable cs
  · rw [(hcurves _).2 ⟨rfl, fun c hc => ⟨(h c hc).1, (h c hc).2, (hi c hc).2⟩⟩]
    dsimp only
    by_cases hd : 0 ≤ rate ∧ 0 ≤ head
    · rw [if_pos hd]
      simp [h, hd, eq_comm]
    · rw [if_neg hd]
      constructor
      · intro e; cases e
      · rintro ⟨⟨-, e⟩, -⟩; exact absurd e hd
  · rcases he : every curveDTO cs with _ | xs
    · constructor
      · intro e; cases e
      · rintro ⟨⟨e, -⟩, -⟩; exact absurd e h
    · have := ((hcurves xs).1 he).2
      exact absurd (fun c hc => ⟨(this c hc).1, (this c hc).2.1⟩) h

/-! ## Examples -/

/-- Headers compared as they are, texts that are no numbers. -/
def reader : Reader := ⟨fun s => if s = "Rate" then "RATE" else s, fun _ => none⟩

def metric : ChartUnits := ⟨.kjPerKg, .percentage⟩

/-- Two speeds, rows in no order. -/
def pump : Memory := ⟨["SPEED", "RATE", "HEAD", "EFFICIENCY"],
  [[.int 100, .int 50, .int 50, .int 100], [.int 8, .int 5, .int 1, .int 2], [.int 40, .int 10, .int 20, .int 50],
   [.int 75, .int 60, .int 50, .int 70]]⟩

def pumpRows : List Row := [⟨100, 8, 40, 75⟩, ⟨50, 5, 10, 60⟩, ⟨50, 1, 20, 50⟩, ⟨100, 2, 50, 70⟩]

def pumpData : Data := ⟨[⟨50, ⟨1, 20000, 1/2⟩, [⟨5, 10000, 3/5⟩]⟩, ⟨100, ⟨2, 50000, 7/10⟩, [⟨8, 40000, 3/4⟩]⟩], some (1/10)⟩

theorem pump_lists : Lists reader pump pumpRows := by
  have hold : ∀ (i : Nat) (h : String) (xs : List ℚ) (col : List Cell), pump.headers[i]? = some h →
      (∀ j < i, ∀ g, pump.headers[j]? = some g → reader.lower g ≠ reader.lower h) →
      pump.data[i]? = some col → col.map (number reader.parse) = xs.map some → Holds reader pump h xs :=
    fun i h xs col h1 h2 h3 h4 => ⟨i, h, col, h1, rfl, h2, h3, (numbers_written _ _ _).2 ((numbers_some _ _ _).1 h4)⟩
  have first : ∀ i, i < 4 → ∀ h, pump.headers[i]? = some h →
      ∀ j < i, ∀ g, pump.headers[j]? = some g → reader.lower g ≠ reader.lower h := by
    intro i hi h hh j hj g hg
    have hi' : i = 0 ∨ i = 1 ∨ i = 2 ∨ i = 3 := by omega
    have hj' : j = 0 ∨ j = 1 ∨ j = 2 ∨ j = 3 := by omega
    rcases hi' with rfl | rfl | rfl | rfl <;> rcases hj' with rfl | rfl | rfl | rfl <;>
      first
      | omega
      | (have h1 := Option.some.inj hh; have h2 := Option.some.inj hg; subst h1; subst h2; decide)
  have h0 := hold 0 "SPEED" (pumpRows.map (·.speed)) _ rfl (first 0 (by omega) _ rfl) rfl (by decide +kernel)
  have h1 := hold 1 "RATE" (pumpRows.map (·.rate)) _ rfl (first 1 (by omega) _ rfl) rfl (by decide +kernel)
  have h2 := hold 2 "HEAD" (pumpRows.map (·.head)) _ rfl (first 2 (by omega) _ rfl) rfl (by decide +kernel)
  have h3 := hold 3 "EFFICIENCY" (pumpRows.map (·.eff)) _ rfl (first 3 (by omega) _ rfl) rfl (by decide +kernel)
  refine ⟨h0, h1, h2, h3, ?_, by decide, by decide, by decide, by decide⟩
  intro h hm
  have : h = "SPEED" ∨ h = "RATE" ∨ h = "HEAD" ∨ h = "EFFICIENCY" := by simpa [pump] using hm
  rcases this with rfl | rfl | rfl | rfl
  exacts [⟨_, h0⟩, ⟨_, h1⟩, ⟨_, h2⟩, ⟨_, h3⟩]

example : readVariable reader metric pump (some (1/10)) = .ok pumpData := by decide +kernel

example : Fits metric pumpRows ∧ Distinct pumpRows := by
  refine ⟨by unfold Fits; decide +kernel, ?_⟩
  intro s
  by_cases h1 : s = 50
  · subst h1; decide +kernel
  · by_cases h2 : s = 100
    · subst h2; decide +kernel
    · have : atSpeed pumpRows s = [] := by
        simp [atSpeed, pumpRows, Ne.symm h1, Ne.symm h2]
      rw [this]
      exact List.nodup_nil

/-- The same curves in the YAML file. -/
example : readYaml metric [written (100, [(8, 40, 75), (2, 50, 70)]), written (50, [(5, 10, 60), (1, 20, 50)])] (some (1/10)) =
    .ok pumpData := by decide +kernel

/-- One speed, without a column for it and with another spelling of `RATE`. -/
example : readSingle reader metric ⟨["Rate", "HEAD", "EFFICIENCY"], [[.int 8, .int 2], [.int 40, .int 50], [.int 75, .int 70]]⟩ none =
    .ok ⟨[⟨1, ⟨2, 50000, 7/10⟩, [⟨8, 40000, 3/4⟩]⟩], none⟩ := by decide +kernel

example : readSingle reader metric pump none = .error (.column "SPEED") := by decide +kernel

/-- A column with comments. -/
example : readVariable reader metric ⟨pump.headers ++ ["NOTE"], pump.data ++ [[.text "a", .text "b", .text "c", .text "d"]]⟩ none =
    .error (.column "NOTE") := by decide +kernel

/-- The same with another spelling of `RATE`. -/
example : readVariable reader metric ⟨["SPEED", "Rate", "HEAD", "EFFICIENCY"], pump.data⟩ none = .error (.keyError "RATE") := by
  decide +kernel

example : chartDTO (.user pumpData) = some ⟨[⟨50, [⟨1, 20000, 1/2⟩, ⟨5, 10000, 3/5⟩]⟩, ⟨100, [⟨2, 50000, 7/10⟩, ⟨8, 40000, 3/4⟩]⟩],
    some [⟨7/5, 19000, 51/100⟩, ⟨13/5, 49000, 141/200⟩], some (1/10), none, none⟩ := by decide +kernel

example : (∀ c ∈ pumpData.curves, C56.Increasing c ∧ 2 ≤ c.pts.length) ∧ Showable pumpData.curves := by
  refine ⟨?_, ?_⟩
  · intro c hc
    simp only [pumpData, List.mem_cons, List.not_mem_nil, or_false] at hc
    rcases hc with rfl | rfl
    · exact ⟨by unfold C56.Increasing; decide +kernel, by decide⟩
    · exact ⟨by unfold C56.Increasing; decide +kernel, by decide⟩
  · intro c hc
    simp only [pumpData, List.mem_cons, List.not_mem_nil, or_false] at hc
    rcases hc with rfl | rfl
    · exact ⟨by decide +kernel, by unfold Allowed; decide +kernel⟩
    · exact ⟨by decide +kernel, by unfold Allowed; decide +kernel⟩

example : chartDTO (.generic 1500 80000 pumpData.curves) =
    some ⟨pumpData.curves.map plain, none, none, some 1500, some 80000⟩ := by decide +kernel

/-! ## Findings -/

/-- A chart whose last efficiency is zero. -/
def stalled : Memory := ⟨["SPEED", "RATE", "HEAD", "EFFICIENCY"],
  [[.int 50, .int 50], [.int 1, .int 5], [.int 20, .int 10], [.int 50, .int 0]]⟩

/-- **Finding**: a chart with an efficiency of zero is accepted as input, but cannot be shown: `ChartDTO.from_domain`
raises pydantic's `ValidationError` while the results are put together, before the validator that is meant to leave out
charts that are not valid (results.py:217-224) is reached. -/
theorem C103_zero_efficiency : ∃ d, readVariable reader metric stalled none = .ok d ∧ chartDTO (.user d) = none :=
  ⟨⟨[⟨50, ⟨1, 20000, 1/2⟩, [⟨5, 10000, 0⟩]⟩], none⟩, by decide +kernel, by decide +kernel⟩

end Verif.C103
