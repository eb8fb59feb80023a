import Verif.Model.SampledFile
import Verif.Props.C48
import Mathlib.Data.List.Forall2
import Mathlib.Data.List.Perm.Basic

/-!
# C118 Sampled compressors and tables from files
-/

namespace Verif.C118
open Verif.Resource Verif.ChartFile Verif.SampledFile Verif.C48

/-! ## Specification -/

/-- A cell has a value. -/
def Reads (parse : String → Option ℚ) (c : Cell) (x : ℚ) : Prop :=
  (∃ n : ℤ, c = .int n ∧ x = n) ∨ c = .float (some x) ∨ ∃ s, c = .text s ∧ parse s = some x

/-- The first column whose header agrees up to case has these values. -/
def HasColumn (r : Reader) (m : Memory) (header : String) (xs : List ℚ) : Prop :=
  ∃ i cells, FirstAt r.lower m.headers header i ∧ m.data[i]? = some cells ∧ List.Forall₂ (Reads r.parse) cells xs

/-- The column that says which energy is used. -/
def energyHeader (m : Memory) : String := if "FUEL" ∈ m.headers then "FUEL" else "POWER"

/-- The data of a file. -/
structure Built (r : Reader) (m : Memory) (d : Sampled.Data) : Prop where
  energy : HasColumn r m (energyHeader m) d.energy
  kind : d.isPower = true ↔ "FUEL" ∉ m.headers
  rate : ∀ xs, d.rate = some xs ↔ HasColumn r m "RATE" xs
  ps : ∀ xs, d.ps = some xs ↔ HasColumn r m "SUCTION_PRESSURE" xs
  pd : ∀ xs, d.pd = some xs ↔ HasColumn r m "DISCHARGE_PRESSURE" xs
  power : ∀ xs, d.power = some xs ↔ "FUEL" ∈ m.headers ∧ HasColumn r m "POWER" xs

/-! ## Columns -/

theorem number_iff (parse : String → Option ℚ) (c : Cell) (x : ℚ) : number parse c = some x ↔ Reads parse c x := by
  unfold Reads
  cases c with
  | int n =>
    constructor
    · intro h; exact .inl ⟨n, rfl, (Option.some.inj h).symm⟩
    · rintro (⟨k, h, rfl⟩ | h | ⟨s, h, -⟩)
      · cases h; rfl
      · cases h
      · cases h
  | float y =>
    constructor
    · intro h
      have h : y = some x := h
      exact .inr (.inl (by rw [h]))
    · rintro (⟨k, h, rfl⟩ | h | ⟨s, h, -⟩)
      · cases h
      · cases h; rfl
      · cases h
  | text s =>
    constructor
    · intro h; exact .inr (.inr ⟨s, rfl, h⟩)
    · rintro (⟨k, h, rfl⟩ | h | ⟨s', h, hp⟩)
      · cases h
      · cases h
      · cases h; exact hp

theorem numbers_iff (parse : String → Option ℚ) : ∀ (cs : List Cell) (xs : List ℚ),
    numbers parse cs = some xs ↔ List.Forall₂ (Reads parse) cs xs
  | [], xs => by
    constructor
    · intro h
      have h : [] = xs := Option.some.inj h
      subst h
      exact .nil
    · intro h
      cases h
      rfl
  | c :: cs, xs => by
    rw [numbers]
    constructor
    · intro h
      cases hc : number parse c with
      | none => rw [hc] at h; cases h
      | some x =>
        cases hn : numbers parse cs with
        | none => rw [hc, hn] at h; cases h
        | some ys =>
          rw [hc, hn] at h
          have h : x :: ys = xs := Option.some.inj h
          subst h
          exact .cons ((number_iff parse c x).mp hc) ((numbers_iff parse cs ys).mp hn)
    · intro h
      cases h with
      | cons a b => rw [(number_iff parse c _).mpr a, (numbers_iff parse cs _).mpr b]

theorem column_iff (r : Reader) (m : Memory) (h : String) (xs : List ℚ) :
    floatColumn r m h = .ok xs ↔ HasColumn r m h xs := by
  unfold floatColumn
  constructor
  · intro e
    cases hg : getColumn r.lower m h with
    | error x => rw [hg] at e; cases e
    | ok cells =>
      rw [hg] at e
      dsimp only at e
      obtain ⟨i, hf, hd⟩ := (C48_found ..).mp hg
      cases hn : numbers r.parse cells with
      | none => rw [hn] at e; cases e
      | some ys =>
        rw [hn] at e
        have e := Except.ok.inj e
        subst e
        exact ⟨i, cells, hf, hd, (numbers_iff r.parse cells ys).mp hn⟩
  · rintro ⟨i, cells, hf, hd, hn⟩
    rw [(C48_found ..).mpr ⟨i, hf, hd⟩]
    dsimp only
    rw [(numbers_iff r.parse cells xs).mpr hn]

theorem orNone_iff (r : Reader) (m : Memory) (h : String) (xs : List ℚ) :
    columnOrNone r m h = some xs ↔ HasColumn r m h xs := by
  rw [← column_iff]
  unfold columnOrNone
  cases floatColumn r m h with
  | ok ys => exact ⟨fun e => by rw [Option.some.inj e], fun e => by rw [Except.ok.inj e]⟩
  | error e => exact ⟨(fun e => by cases e), (fun e => by cases e)⟩

theorem header_eq (m : Memory) :
    (if decide ("FUEL" ∈ m.headers) = true then "FUEL" else "POWER") = energyHeader m := by
  unfold energyHeader
  by_cases h : "FUEL" ∈ m.headers <;> simp [h]

/-! ## Theorems -/

/-- **C118, data.** A sampled compressor is built from a file exactly if its column for energy is there and consists of
numbers: FUEL if there is a header written so, else POWER. Then the energy is that column; rate, suction and discharge
pressure are the columns of these names, if there are such columns of numbers, and POWER is the power for interpolation
beside FUEL. The name of a column counts up to case. -/
theorem C118_data (r : Reader) (m : Memory) :
    ((∃ d, sampledData r m = .ok d) ↔ ∃ xs, HasColumn r m (energyHeader m) xs) ∧
    ∀ d, sampledData r m = .ok d → Built r m d := by
  have main : ∀ xs, floatColumn r m (energyHeader m) = .ok xs → ∃ d, sampledData r m = .ok d ∧ Built r m d := by
    intro xs hx
    unfold sampledData
    dsimp only
    rw [header_eq, hx]
    refine ⟨_, rfl, ⟨(column_iff r m _ xs).mp hx, ?_, fun ys => orNone_iff .., fun ys => orNone_iff ..,
      fun ys => orNone_iff .., ?_⟩⟩
    · unfold energyHeader
      by_cases h : "FUEL" ∈ m.headers <;> simp [h]
    · intro ys
      dsimp only
      by_cases h : "FUEL" ∈ m.headers
      · rw [if_pos (by simpa using h), orNone_iff]
        exact ⟨fun e => ⟨h, e⟩, fun e => e.2⟩
      · rw [if_neg (by simpa using h)]
        exact ⟨(fun e => by cases e), fun e => absurd e.1 h⟩
  have only : ∀ d, sampledData r m = .ok d → ∃ xs, floatColumn r m (energyHeader m) = .ok xs := by
    intro d h
    unfold sampledData at h
    dsimp only at h
    rw [header_eq] at h
    cases hx : floatColumn r m (energyHeader m) with
    | error e => rw [hx] at h; cases h
    | ok xs => exact ⟨xs, rfl⟩
  refine ⟨⟨?_, ?_⟩, ?_⟩
  · rintro ⟨d, h⟩
    obtain ⟨xs, hx⟩ := only d h
    exact ⟨xs, (column_iff ..).mp hx⟩
  · rintro ⟨xs, hx⟩
    obtain ⟨d, h, -⟩ := main xs ((column_iff ..).mpr hx)
    exact ⟨d, h⟩
  · intro d h
    obtain ⟨xs, hx⟩ := only d h
    obtain ⟨d', h', hb⟩ := main xs hx
    rw [h] at h'
    rw [Except.ok.inj h']
    exact hb

theorem built_iff (r : Reader) (m : Memory) (d : Sampled.Data) : sampledData r m = .ok d ↔ Built r m d := by
  refine ⟨(C118_data r m).2 d, ?_⟩
  intro b
  obtain ⟨d', h⟩ := (C118_data r m).1.mpr ⟨_, b.energy⟩
  have b' := (C118_data r m).2 d' h
  have e1 : d'.energy = d.energy :=
    Except.ok.inj (((column_iff ..).mpr b'.energy).symm.trans ((column_iff ..).mpr b.energy))
  have e2 : d'.isPower = d.isPower := by
    rw [Bool.eq_iff_iff, b'.kind, b.kind]
  have e3 : d'.rate = d.rate := Option.ext fun xs => (b'.rate xs).trans (b.rate xs).symm
  have e4 : d'.ps = d.ps := Option.ext fun xs => (b'.ps xs).trans (b.ps xs).symm
  have e5 : d'.pd = d.pd := Option.ext fun xs => (b'.pd xs).trans (b.pd xs).symm
  have e6 : d'.power = d.power := Option.ext fun xs => (b'.power xs).trans (b.power xs).symm
  rw [h]
  cases d
  cases d'
  simp only at e1 e2 e3 e4 e5 e6
  subst e1 e2 e3 e4 e5 e6
  rfl

/-- **C118, creation.** The compressor made of a file is the one made of the data of the file, and is refused by the file or
by the model. Of a file without the column for energy the name of that column is told; of one with a cell there that is no
number, too. -/
theorem C118_created (eng : Sampled.Engine) (r : Reader) (m : Memory) :
    (∀ x, createSampled eng r m = .ok x ↔ ∃ d, Built r m d ∧ d.create eng = .ok x) ∧
    (∀ e, createSampled eng r m = .error (.model e) ↔ ∃ d, Built r m d ∧ d.create eng = .error e) ∧
    ((∃ e, createSampled eng r m = .error (.file e)) ↔ ¬ ∃ xs, HasColumn r m (energyHeader m) xs) ∧
    ((∀ h ∈ m.headers, r.lower h ≠ r.lower (energyHeader m)) →
      createSampled eng r m = .error (.file (.resource (.headerNotFound (energyHeader m))))) ∧
    (∀ i cells, FirstAt r.lower m.headers (energyHeader m) i → m.data[i]? = some cells →
      (∃ c ∈ cells, ∀ x, ¬ Reads r.parse c x) →
      createSampled eng r m = .error (.file (.column (energyHeader m)))) := by
  have bad : ∀ e, floatColumn r m (energyHeader m) = .error e → createSampled eng r m = .error (.file e) := by
    intro e he
    unfold createSampled sampledData
    dsimp only
    rw [header_eq, he]
  refine ⟨?_, ?_, ?_, ?_, ?_⟩
  · intro x
    unfold createSampled
    cases hd : sampledData r m with
    | error e =>
      refine ⟨(fun h => by cases h), fun ⟨d, b, _⟩ => ?_⟩
      rw [(built_iff r m d).mpr b] at hd
      cases hd
    | ok d =>
      dsimp only
      have only : ∀ d', Built r m d' → d' = d := fun d' b =>
        Except.ok.inj (((built_iff r m d').mpr b).symm.trans hd)
      constructor
      · intro h
        refine ⟨d, (built_iff r m d).mp hd, ?_⟩
        cases hc : d.create eng with
        | error e => rw [hc] at h; cases h
        | ok y => rw [hc] at h; rw [Except.ok.inj h]
      · rintro ⟨d', b, h⟩
        rw [only d' b] at h
        rw [h]
  · intro e
    unfold createSampled
    cases hd : sampledData r m with
    | error e =>
      refine ⟨(fun h => by cases h), fun ⟨d, b, _⟩ => ?_⟩
      rw [(built_iff r m d).mpr b] at hd
      cases hd
    | ok d =>
      dsimp only
      have only : ∀ d', Built r m d' → d' = d := fun d' b =>
        Except.ok.inj (((built_iff r m d').mpr b).symm.trans hd)
      constructor
      · intro h
        refine ⟨d, (built_iff r m d).mp hd, ?_⟩
        cases hc : d.create eng with
        | error e => rw [hc] at h; cases h; rfl
        | ok y => rw [hc] at h; cases h
      · rintro ⟨d', b, h⟩
        rw [only d' b] at h
        rw [h]
  · rw [← (C118_data r m).1]
    unfold createSampled
    cases hd : sampledData r m with
    | error e => exact ⟨fun _ ⟨d, h⟩ => (by cases h), fun _ => ⟨e, rfl⟩⟩
    | ok d =>
      refine ⟨?_, fun h => absurd ⟨d, rfl⟩ h⟩
      rintro ⟨e, h⟩
      dsimp only at h
      cases hc : d.create eng with
      | error e => rw [hc] at h; cases h
      | ok y => rw [hc] at h; cases h
  · intro h
    apply bad
    unfold floatColumn
    rw [(C48_missing ..).mpr h]
  · intro i cells hf hd ⟨c, hc, hx⟩
    apply bad
    unfold floatColumn
    rw [(C48_found ..).mpr ⟨i, hf, hd⟩]
    dsimp only
    cases hn : numbers r.parse cells with
    | none => rfl
    | some xs =>
      obtain ⟨j, hj, rfl⟩ := List.mem_iff_getElem.mp hc
      have F := (numbers_iff ..).mp hn
      have hl := F.length_eq
      exact absurd ((List.forall₂_iff_get.mp F).2 j hj (by omega)) (hx _)

/-- The file has a column for each header, and headers that differ up to case. -/
structure Regular (r : Reader) (m : Memory) : Prop where
  full : m.data.length = m.headers.length
  distinct : (m.headers.map r.lower).Nodup

theorem regular_column {r : Reader} {m : Memory} (hm : Regular r m) (h : String) (xs : List ℚ) :
    HasColumn r m h xs ↔ ∃ p ∈ m.headers.zip m.data, r.lower p.1 = r.lower h ∧ List.Forall₂ (Reads r.parse) p.2 xs := by
  constructor
  · rintro ⟨i, cells, ⟨⟨h', hh, hl⟩, -⟩, hd, hn⟩
    refine ⟨(h', cells), ?_, hl, hn⟩
    exact List.mem_of_getElem? (List.getElem?_zip_eq_some.mpr ⟨hh, hd⟩)
  · rintro ⟨⟨h', cells⟩, hp, hl, hn⟩
    obtain ⟨i, hi⟩ := List.mem_iff_getElem?.mp hp
    obtain ⟨hh, hd⟩ := List.getElem?_zip_eq_some.mp hi
    refine ⟨i, cells, ⟨⟨h', hh, hl⟩, ?_⟩, hd, hn⟩
    intro j hj k hk he
    obtain ⟨hi', e1⟩ := List.getElem?_eq_some_iff.mp hh
    obtain ⟨hj', e2⟩ := List.getElem?_eq_some_iff.mp hk
    have := List.pairwise_iff_getElem.mp hm.distinct j i (by simpa using hj') (by simpa using hi') hj
    simp only [List.getElem_map] at this
    apply this
    rw [e1, e2, he]
    exact hl.symm

theorem reads_unique {parse : String → Option ℚ} {cs : List Cell} {xs ys : List ℚ}
    (h : List.Forall₂ (Reads parse) cs xs) (h' : List.Forall₂ (Reads parse) cs ys) : xs = ys :=
  Option.some.inj (((numbers_iff parse cs xs).mpr h).symm.trans ((numbers_iff parse cs ys).mpr h'))

/-- **C118, order of columns.** The order of the columns of a file does not matter. -/
theorem C118_order (r : Reader) {m m' : Memory} (hm : Regular r m) (hm' : Regular r m')
    (h : (m.headers.zip m.data).Perm (m'.headers.zip m'.data)) (d : Sampled.Data) (hd : sampledData r m = .ok d) :
    sampledData r m' = .ok d := by
  have hc : ∀ name xs, HasColumn r m name xs ↔ HasColumn r m' name xs := by
    intro name xs
    rw [regular_column hm, regular_column hm']
    exact ⟨fun ⟨p, hp, x⟩ => ⟨p, h.mem_iff.mp hp, x⟩, fun ⟨p, hp, x⟩ => ⟨p, h.mem_iff.mpr hp, x⟩⟩
  have hheads : "FUEL" ∈ m.headers ↔ "FUEL" ∈ m'.headers := by
    have e : ∀ k : Memory, k.data.length = k.headers.length → (k.headers.zip k.data).map Prod.fst = k.headers :=
      fun k hk => List.map_fst_zip (by omega)
    rw [← e m hm.full, ← e m' hm'.full]
    exact (h.map Prod.fst).mem_iff
  have he : energyHeader m = energyHeader m' := by
    unfold energyHeader
    by_cases x : "FUEL" ∈ m.headers
    · rw [if_pos x, if_pos (hheads.mp x)]
    · rw [if_neg x, if_neg (fun y => x (hheads.mpr y))]
  have hnone : ∀ name, columnOrNone r m name = columnOrNone r m' name := by
    intro name
    apply Option.ext
    intro xs
    rw [orNone_iff, orNone_iff]
    exact hc name xs
  obtain ⟨xs, hx⟩ := (C118_data r m).1.mp ⟨d, hd⟩
  have hx' := (hc _ _).mp hx
  rw [he] at hx'
  have dec : decide ("FUEL" ∈ m.headers) = decide ("FUEL" ∈ m'.headers) := decide_eq_decide.mpr hheads
  unfold sampledData at hd ⊢
  dsimp only at hd ⊢
  rw [header_eq, (column_iff ..).mpr hx, he] at hd
  rw [header_eq, (column_iff ..).mpr hx', ← dec, ← hnone, ← hnone, ← hnone, ← hnone]
  exact hd

/-- **C118, tables.** A table is accepted exactly if all its columns consist of numbers; then each header has the values of
its own column. -/
theorem C118_tabular (r : Reader) {m : Memory} (hm : Regular r m) :
    ((∃ t, tabularData r m = .ok t) ↔ ∀ cells ∈ m.data, ∀ c ∈ cells, ∃ x, Reads r.parse c x) ∧
    ∀ hs data, tabularData r m = .ok (hs, data) →
      hs = m.headers ∧ List.Forall₂ (List.Forall₂ (Reads r.parse)) m.data data := by
  have own : ∀ (i : ℕ) (h : String) (cells : List Cell), m.headers[i]? = some h → m.data[i]? = some cells →
      ∀ xs, floatColumn r m h = .ok xs ↔ List.Forall₂ (Reads r.parse) cells xs := by
    intro i h cells hh hd xs
    unfold floatColumn
    rw [C48_own_column r.lower m hm.distinct i h cells hh hd]
    dsimp only
    constructor
    · intro e
      cases hn : numbers r.parse cells with
      | none => rw [hn] at e; cases e
      | some ys =>
        rw [hn] at e
        rw [← Except.ok.inj e]
        exact (numbers_iff ..).mp hn
    · intro e
      rw [(numbers_iff ..).mpr e]
  have loop : ∀ (hs : List String) (cols : List (List Cell)) (k : ℕ), hs = m.headers.drop k → cols = m.data.drop k →
      ∀ data, readColumns r m hs = .ok data ↔ List.Forall₂ (List.Forall₂ (Reads r.parse)) cols data := by
    intro hs
    induction hs with
    | nil =>
      intro cols k h1 h2 data
      have hk : m.headers.length ≤ k := List.drop_eq_nil_iff.mp h1.symm
      have : cols = [] := by rw [h2]; exact List.drop_eq_nil_iff.mpr (by rw [hm.full]; exact hk)
      subst this
      constructor
      · intro e
        rw [← Except.ok.inj e]
        exact .nil
      · intro e
        cases e
        rfl
    | cons h hs ih =>
      intro cols k h1 h2 data
      have hh : m.headers[k]? = some h := by
        have := congrArg (fun l => l[0]?) h1
        simpa using this.symm
      obtain ⟨hk, -⟩ := List.getElem?_eq_some_iff.mp hh
      have hkd : k < m.data.length := by rw [hm.full]; exact hk
      have hcols : cols = m.data[k] :: m.data.drop (k + 1) := by rw [h2]; exact List.drop_eq_getElem_cons hkd
      have hhs : hs = m.headers.drop (k + 1) := by
        have := congrArg List.tail h1
        simpa using this
      subst hcols
      rw [readColumns]
      have o := own k h m.data[k] hh (List.getElem?_eq_getElem hkd)
      constructor
      · intro e
        cases hf : floatColumn r m h with
        | error x => rw [hf] at e; cases e
        | ok xs =>
          rw [hf] at e
          dsimp only at e
          cases hr : readColumns r m hs with
          | error x => rw [hr] at e; cases e
          | ok rest =>
            rw [hr] at e
            rw [← Except.ok.inj e]
            exact .cons ((o xs).mp hf) ((ih _ (k + 1) hhs rfl rest).mp hr)
      · intro e
        cases e with
        | cons a b => rw [(o _).mpr a, (ih _ (k + 1) hhs rfl _).mpr b]
  have all := loop m.headers m.data 0 rfl rfl
  constructor
  · constructor
    · rintro ⟨t, ht⟩
      unfold tabularData at ht
      cases hr : readColumns r m m.headers with
      | error x => rw [hr] at ht; cases ht
      | ok data =>
        have F := (all data).mp hr
        intro cells hcells c hc
        obtain ⟨i, hi⟩ := List.mem_iff_getElem.mp hcells
        obtain ⟨hi, rfl⟩ := hi
        have hl := F.length_eq
        have G := (List.forall₂_iff_get.mp F).2 i hi (by omega)
        obtain ⟨j, hj, rfl⟩ := List.mem_iff_getElem.mp hc
        have hl2 := G.length_eq
        exact ⟨_, (List.forall₂_iff_get.mp G).2 j hj (by
          have : (m.data.get ⟨i, hi⟩).length = m.data[i].length := rfl
          omega)⟩
    · intro h
      have ex : ∀ cells : List Cell, (∀ c ∈ cells, ∃ x, Reads r.parse c x) → ∃ xs, List.Forall₂ (Reads r.parse) cells xs := by
        intro cells
        induction cells with
        | nil => intro _; exact ⟨[], .nil⟩
        | cons c cs ih =>
          intro h
          obtain ⟨x, hx⟩ := h c List.mem_cons_self
          obtain ⟨xs, hxs⟩ := ih fun c hc => h c (List.mem_cons_of_mem _ hc)
          exact ⟨x :: xs, .cons hx hxs⟩
      have ex2 : ∀ cols : List (List Cell), (∀ cells ∈ cols, ∀ c ∈ cells, ∃ x, Reads r.parse c x) →
          ∃ data, List.Forall₂ (List.Forall₂ (Reads r.parse)) cols data := by
        intro cols
        induction cols with
        | nil => intro _; exact ⟨[], .nil⟩
        | cons c cs ih =>
          intro h
          obtain ⟨x, hx⟩ := ex c (h c List.mem_cons_self)
          obtain ⟨xs, hxs⟩ := ih fun c hc => h c (List.mem_cons_of_mem _ hc)
          exact ⟨x :: xs, .cons hx hxs⟩
      obtain ⟨data, hdata⟩ := ex2 m.data h
      refine ⟨(m.headers, data), ?_⟩
      unfold tabularData
      rw [(all data).mpr hdata]
  · intro hs data h
    unfold tabularData at h
    cases hr : readColumns r m m.headers with
    | error x => rw [hr] at h; cases h
    | ok data' =>
      rw [hr] at h
      have h := Except.ok.inj h
      cases h
      exact ⟨rfl, (all _).mp hr⟩

/-! ## Findings -/

/-- Letters of any case are equal; digits are numbers. -/
def reader : Reader where
  lower := fun s => String.ofList (s.toList.map Char.toLower)
  parse := fun s => if s.toList = ['7'] then some 7 else none

/-- **C118, finding.** A column with a cell that is no number is left out without a word, as if the file did not have it:
the compressor is built from the other columns. -/
theorem C118_lost_column :
    (match sampledData reader ⟨["RATE", "SUCTION_PRESSURE", "POWER"],
        [[.int 1, .text "2;5"], [.int 10, .int 20], [.int 3, .int 4]]⟩ with
      | .ok d => decide (d.rate = none ∧ d.ps = some [10, 20] ∧ d.energy = [3, 4]) | .error _ => false) = true := by
  decide +kernel

/-- **C118, finding.** Names of columns count up to case, but that of fuel does not: beside power it is disregarded and the
compressor takes power, alone the file is refused. -/
theorem C118_fuel_case :
    (match sampledData reader ⟨["rate", "fuel", "power"], [[.int 1], [.int 100], [.int 3]]⟩ with
      | .ok d => decide (d.isPower = true ∧ d.energy = [3] ∧ d.power = none) | .error _ => false) = true ∧
    (match sampledData reader ⟨["rate", "fuel"], [[.int 1], [.int 100]]⟩ with
      | .ok _ => false | .error e => decide (e = .resource (.headerNotFound "POWER"))) = true ∧
    (match sampledData reader ⟨["rate", "FUEL", "power"], [[.int 1], [.int 100], [.int 3]]⟩ with
      | .ok d => decide (d.isPower = false ∧ d.energy = [100] ∧ d.power = some [3]) | .error _ => false) = true := by
  decide +kernel

/-! ## Examples -/

/-- Columns in another order, a text that is a number, a column that is not used. -/
example : (match sampledData reader ⟨["Note", "Power", "Discharge_Pressure", "Rate"],
        [[.text "x"], [.text "7"], [.float (some (1 / 2))], [.int 9]]⟩ with
      | .ok d => decide (d.isPower = true ∧ d.energy = [7] ∧ d.rate = some [9] ∧ d.ps = none ∧ d.pd = some [1 / 2])
      | .error _ => false) = true := by decide +kernel

/-- A table. -/
example : tabularData reader ⟨["RATE", "FUEL"], [[.int 1, .int 2], [.int 3, .text "7"]]⟩ =
    .ok (["RATE", "FUEL"], [[1, 2], [3, 7]]) := by rfl

end Verif.C118
