import Verif.Lemmas.Table
import Verif.Model.Consumer
import Verif.Props.C47

/-!
# C52: tabulated consumers

A tabulated consumer uses the energy its table gives for the variable: the tabulated value at a tabulated point, the
value on the straight line between two neighbouring points, and an invalid result outside the table.
-/

namespace Verif.C52
open Verif.Time Verif.Units Verif.Rates Verif.Consumer Verif.Inputs Verif.TableLemmas Verif.Table

/-! ## The table -/

/-- **C52, one lookup.** A number inside the range of a table gives a value on the table: that of a row, or on the straight
line between two neighbouring rows. A number outside, and NaN, give no number. -/
theorem C52_lookup (rows : List (ℚ × ℚ)) (hne : rows ≠ []) :
    (∀ x : ℚ, (∃ r ∈ rows, r.1 ≤ x) → (∃ r ∈ rows, x ≤ r.1) →
      ∃ y, lookupNan rows (some x) = .ok (some y) ∧ Between rows x y) ∧
    (∀ x : ℚ, (∀ r ∈ rows, x < r.1) ∨ (∀ r ∈ rows, r.1 < x) → lookupNan rows (some x) = .ok none) ∧
    lookupNan rows none = .ok none := by
  have hs := sortRows_sorted rows
  have hmem := mem_sortRows rows
  have hne' := sortRows_ne_nil hne
  unfold lookupNan
  cases hc : sortRows rows with
  | nil => exact absurd hc hne'
  | cons a rest =>
    rw [hc] at hs hmem
    have hfl := sorted_first_last a rest hs
    simp only
    refine ⟨?_, ?_, trivial⟩
    · rintro x ⟨r1, hr1, h1⟩ ⟨r2, hr2, h2⟩
      have g1 : a.1 ≤ x := le_trans (hfl r1 ((hmem r1).2 hr1)).1 h1
      have g2 : x ≤ ((a :: rest).getLast (by simp)).1 := le_trans h2 (hfl r2 ((hmem r2).2 hr2)).2
      rw [if_neg (not_lt.2 g1), if_neg (not_lt.2 g2)]
      refine ⟨_, rfl, ?_⟩
      rcases segment_between a rest x hs g1 g2 with hm | ⟨c, h1, d, h2, h3, h4, h5, h6⟩
      · exact .inl ((hmem _).1 hm)
      · exact .inr ⟨c, (hmem c).1 h1, d, (hmem d).1 h2, h3, h4, fun r hr => h5 r ((hmem r).2 hr), h6⟩
    · rintro x (h | h)
      · rw [if_pos (h a ((hmem a).1 (by simp)))]
      · by_cases hx : x < a.1
        · rw [if_pos hx]
        · rw [if_neg hx, if_pos (h _ ((hmem _).1 (List.getLast_mem (by simp))))]

/-- **C52, tabulated points.** At the variable of a row whose variable occurs once, the value is that of the row. -/
theorem C52_point (rows : List (ℚ × ℚ)) (r : ℚ × ℚ) (hr : r ∈ rows) (huniq : ∀ s ∈ rows, s.1 = r.1 → s = r) :
    lookupNan rows (some r.1) = .ok (some r.2) := by
  have hne : rows ≠ [] := List.ne_nil_of_mem hr
  obtain ⟨y, h1, h2⟩ := (C52_lookup rows hne).1 r.1 ⟨r, hr, le_refl _⟩ ⟨r, hr, le_refl _⟩
  rcases h2 with h2 | ⟨a, ha, b, hb, h3, h4, h5, -⟩
  · have := huniq _ h2 rfl
    rw [h1, ← this]
  · rcases h5 r hr with h | h <;> linarith

/-- **C52, order of the rows.** Rows with different variables may be written in any order. -/
theorem C52_row_order (rows rows' : List (ℚ × ℚ)) (hp : rows.Perm rows') (hn : (rows.map (·.1)).Nodup) (x : Fl) :
    lookupNan rows x = lookupNan rows' x := by
  have : sortRows rows = sortRows rows' := by
    have h1 := sortRows_sorted rows
    have h2 := sortRows_sorted rows'
    have hpr : ∀ l : List (ℚ × ℚ), (sortRows l).Perm l := by
      intro l
      have ins : ∀ (r : ℚ × ℚ) (l : List (ℚ × ℚ)), (insertRow r l).Perm (r :: l) := by
        intro r l
        induction l with
        | nil => exact List.Perm.refl _
        | cons a l ih =>
          unfold insertRow
          split
          · exact List.Perm.refl _
          · exact (ih.cons a).trans (List.Perm.swap _ _ _)
      have aux : ∀ (l acc : List (ℚ × ℚ)), (l.foldl (fun acc r => insertRow r acc) acc).Perm (l ++ acc) := by
        intro l
        induction l with
        | nil => intro acc; exact List.Perm.refl _
        | cons a l ih =>
          intro acc
          rw [List.foldl_cons]
          exact (ih _).trans (((ins a acc).append_left l).trans List.perm_middle)
      have := aux l []
      rwa [List.append_nil] at this
    refine List.Perm.eq_of_pairwise (le := fun a b : ℚ × ℚ => a.1 ≤ b.1) ?_ h1 h2 ((hpr rows).trans (hp.trans (hpr rows').symm))
    intro a b ha hb hab hba
    have ha' := (hpr rows).mem_iff.1 ha
    have hb' := hp.mem_iff.2 ((hpr rows').mem_iff.1 hb)
    exact List.inj_on_of_nodup_map hn ha' hb' (le_antisymm hab hba)
  unfold lookupNan
  rw [this]

/-! ## Building the table -/

theorem column_ok (h1 : String) (hs : List String) (data : List (List ℚ)) (i : Nat) (c : List ℚ)
    (hi : hs[i]? = some h1) (hn : ∀ j < i, hs[j]? ≠ some h1) (hc : data[i]? = some c) : column hs data h1 = .ok c := by
  have : hs.findIdx? (· == h1) = some i := by
    rw [List.findIdx?_eq_some_iff_getElem]
    obtain ⟨hlt, he⟩ := List.getElem?_eq_some_iff.1 hi
    refine ⟨hlt, by simp [he], ?_⟩
    intro j hj
    have := hn j hj
    rw [List.getElem?_eq_getElem (by omega)] at this
    simpa using this
  unfold column
  rw [this]
  simp only [hc]

/-- **C52, columns.** A table with a column of the variable and one of energy, in either order, is read as pairs of variable
and energy; the energy is power if the column is headed POWER and fuel if FUEL. -/
theorem C52_columns (v : String) (k : UsageType) (xs ys : List ℚ) (hv : v ≠ "FUEL" ∧ v ≠ "POWER") (hne : xs ≠ [])
    (hl : xs.length = ys.length) :
    EnergyTable.make [v, k.header] [xs, ys] = .ok ⟨k, v, xs.zip ys⟩ ∧
    EnergyTable.make [k.header, v] [ys, xs] = .ok ⟨k, v, xs.zip ys⟩ := by
  obtain ⟨h1, h2⟩ := hv
  have hd : ∀ n : Nat, ([n, n] : List Nat).dedup.length = 1 := by intro n; simp
  constructor
  · have e1 : column [v, k.header] [xs, ys] v = .ok xs := column_ok v _ _ 0 xs rfl (by simp) rfl
    have e2 : column [v, k.header] [xs, ys] k.header = .ok ys := column_ok _ _ _ 1 ys rfl (by
      intro j hj
      have : j = 0 := by omega
      subst this
      cases k <;> simpa [UsageType.header] using by assumption) rfl
    have e3 : usageType [v, k.header] = k := by cases k <;> simp [usageType, UsageType.header, Ne.symm h2]
    have e4 : requiredVariables [v, k.header] = [v] := by
      unfold requiredVariables
      rw [e3]
      cases k <;> simp [UsageType.header, h1, h2]
    unfold EnergyTable.make
    rw [if_neg (by cases k <;> simp [UsageType.header]), if_neg (by simp [hl]), if_neg (by simp), e4, e3]
    simp only [e1, e2, Bind.bind, Except.bind, hne, if_false, Pure.pure, Except.pure]
  · have e1 : column [k.header, v] [ys, xs] v = .ok xs := column_ok v _ _ 1 xs rfl (by
      intro j hj
      have : j = 0 := by omega
      subst this
      cases k <;> simpa [UsageType.header] using (by first | exact h1.symm | exact h2.symm)) rfl
    have e2 : column [k.header, v] [ys, xs] k.header = .ok ys := column_ok _ _ _ 0 ys rfl (by simp) rfl
    have e3 : usageType [k.header, v] = k := by cases k <;> simp [usageType, UsageType.header, Ne.symm h2]
    have e4 : requiredVariables [k.header, v] = [v] := by
      unfold requiredVariables
      rw [e3]
      cases k <;> simp [UsageType.header, h1, h2]
    unfold EnergyTable.make
    rw [if_neg (by cases k <;> simp [UsageType.header]), if_neg (by simp [hl]), if_neg (by simp), e4, e3]
    simp only [e1, e2, Bind.bind, Except.bind, hne, if_false, Pure.pure, Except.pure]

/-- **C52, refused tables**: no column of energy, or columns of different lengths. -/
theorem C52_refused (headers : List String) (data : List (List ℚ)) :
    (("FUEL" ∉ headers ∧ "POWER" ∉ headers) → EnergyTable.make headers data = .error .validation) ∧
    ((∃ a ∈ data, ∃ b ∈ data, a.length ≠ b.length) → EnergyTable.make headers data = .error .validation) := by
  constructor
  · rintro ⟨h1, h2⟩
    unfold EnergyTable.make
    rw [if_pos (by simp [h1, h2])]
  · rintro ⟨a, ha, b, hb, hab⟩
    unfold EnergyTable.make
    split
    · rfl
    · rw [if_pos]
      by_contra hc
      have hlen : (data.map List.length).dedup.length ≤ 1 := by omega
      have ma : a.length ∈ (data.map List.length).dedup := List.mem_dedup.2 (List.mem_map_of_mem ha)
      have mb : b.length ∈ (data.map List.length).dedup := List.mem_dedup.2 (List.mem_map_of_mem hb)
      match hd : (data.map List.length).dedup with
      | [] => rw [hd] at ma; simp at ma
      | [n] =>
        rw [hd] at ma mb
        simp at ma mb
        exact hab (ma.trans mb.symm)
      | n :: m :: l => rw [hd] at hlen; simp at hlen

/-! ## The consumer -/

/-- **C52, the consumer.** Given its variable, the consumer answers one value per value of the variable: on the table inside its
range, and then valid exactly when it is not negative; not a number, and invalid, outside. Power is reported exactly for
tables of power. -/
theorem C52_consumer (t : EnergyTable) (hne : t.rows ≠ []) (ps : Periods) (xs : List Fl) (loss : Option (List Fl)) :
    ∃ r, t.evaluate ps [(t.name, xs)] loss = .ok r ∧ r.periods = ps ∧ r.usage.length = xs.length ∧
      r.usageUnit = (match t.kind with | .power => .MEGA_WATT | .fuel => .STANDARD_CUBIC_METER_PER_DAY) ∧
      r.power = (match t.kind with | .power => some r.usage | .fuel => none) ∧ r.loss = loss ∧
      ∀ (i : Nat) (x : ℚ), xs[i]? = some (some x) →
        ((∃ s ∈ t.rows, s.1 ≤ x) → (∃ s ∈ t.rows, x ≤ s.1) →
          ∃ y, r.usage[i]? = some (some y) ∧ Between t.rows x y ∧ (r.valid[i]? = some true ↔ 0 ≤ y)) ∧
        ((∀ s ∈ t.rows, x < s.1) ∨ (∀ s ∈ t.rows, s.1 < x) → r.usage[i]? = some none ∧ r.valid[i]? = some false) := by
  have hall : ∀ x : Fl, ∃ y, lookupNan t.rows x = .ok y := by
    intro x
    cases x with
    | none => exact ⟨_, (C52_lookup t.rows hne).2.2⟩
    | some x =>
      by_cases h1 : ∃ s ∈ t.rows, s.1 ≤ x
      · by_cases h2 : ∃ s ∈ t.rows, x ≤ s.1
        · obtain ⟨y, hy, -⟩ := (C52_lookup t.rows hne).1 x h1 h2
          exact ⟨_, hy⟩
        · push Not at h2
          exact ⟨_, (C52_lookup t.rows hne).2.1 x (.inr h2)⟩
      · push Not at h1
        exact ⟨_, (C52_lookup t.rows hne).2.1 x (.inl h1)⟩
  choose f hf using hall
  have hm : xs.mapM (lookupNan t.rows) = .ok (xs.map f) := C47.mapM_ok_of _ _ xs fun x _ => hf x
  refine ⟨⟨ps, xs.map f, t.kind.unit, match t.kind with | .power => some (xs.map f) | .fuel => none, false, loss⟩, ?_, rfl,
    by simp, ?_, rfl, rfl, ?_⟩
  · unfold EnergyTable.evaluate
    rw [if_neg (by simp)]
    simp only [List.foldl_cons, List.foldl_nil, dictSet, List.lookup_cons_self, hm, Bind.bind, Except.bind, Pure.pure,
      Except.pure]
    cases t.kind <;> rfl
  · cases t.kind <;> rfl
  · intro i x hx
    have hi : (xs.map f)[i]? = some (f (some x)) := by rw [List.getElem?_map, hx]; rfl
    refine ⟨?_, ?_⟩
    · intro h1 h2
      obtain ⟨y, hy, hb⟩ := (C52_lookup t.rows hne).1 x h1 h2
      have he : f (some x) = some y := by
        have := hf (some x)
        rw [hy] at this
        simpa using this.symm
      refine ⟨y, by rw [hi, he], hb, ?_⟩
      simp only [FunctionResult.valid, genericValid]
      rw [List.getElem?_map, hi, he]
      simp
    · intro h
      have hn := (C52_lookup t.rows hne).2.1 x h
      have he : f (some x) = none := by
        have := hf (some x)
        rw [hn] at this
        simpa using this.symm
      refine ⟨by rw [hi, he], ?_⟩
      simp only [FunctionResult.valid, genericValid]
      rw [List.getElem?_map, hi, he]
      rfl

/-- **C52, wrong variables.** A consumer given other variables than the one of its table, or none, is refused. -/
theorem C52_wrong_variables (t : EnergyTable) (ps : Periods) (vars : List (String × List Fl)) (loss : Option (List Fl))
    (h : vars = [] ∨ ∃ nv ∈ vars, nv.1 ≠ t.name) : t.evaluate ps vars loss = .error .programmingError := by
  unfold EnergyTable.evaluate
  rw [if_pos]
  rcases h with h | ⟨nv, h1, h2⟩
  · exact .inr h
  · left
    simp only [Bool.not_eq_true', List.all_eq_false]
    exact ⟨nv, h1, by simpa using h2⟩

/-- **C52, the variable.** A variable that is a rate is used per stream day: where the condition holds and the regularity is
not zero, the value times the regularity is the value given per calendar day. Other variables are used as given. -/
theorem C52_variable (mask : Option (List Fl)) (xs regs : List ℚ) (hl : xs.length = regs.length)
    (hm : ∀ m, mask = some m → m.length = xs.length) :
    ∃ vs ws, variableValues true mask (xs.map some) (regs.map some) = .ok vs ∧
      variableValues false mask (xs.map some) (regs.map some) = .ok ws ∧ vs.length = xs.length ∧ ws.length = xs.length ∧
      ∀ (i : Nat) (x g : ℚ), xs[i]? = some x → regs[i]? = some g →
        ((∀ m, mask = some m → m[i]? ≠ some (some 0)) → ws[i]? = some (some x) ∧
          (g ≠ 0 → ∃ v, vs[i]? = some (some v) ∧ v * g = x)) ∧
        ((∃ m, mask = some m ∧ m[i]? = some (some 0)) → ws[i]? = some (some 0) ∧ vs[i]? = some (some 0)) := by
  -- the masked values
  obtain ⟨ms, hms, hml, hmv⟩ : ∃ ms : List ℚ, maskApply mask (xs.map some) = .ok (ms.map some) ∧ ms.length = xs.length ∧
      ∀ (i : Nat) (x : ℚ), xs[i]? = some x →
        ((∀ m, mask = some m → m[i]? ≠ some (some 0)) → ms[i]? = some x) ∧
        ((∃ m, mask = some m ∧ m[i]? = some (some 0)) → ms[i]? = some 0) := by
    cases mask with
    | none => exact ⟨xs, rfl, rfl, fun i x hx => ⟨fun _ => hx, by simp⟩⟩
    | some m =>
      have hml := hm m rfl
      refine ⟨List.zipWith (fun (c : Fl) x => if c ≠ some 0 then x else 0) m xs, ?_, by simp [hml], ?_⟩
      · unfold maskApply npOp
        simp only
        rw [if_pos (by simp [hml])]
        rw [List.zipWith_map_right, List.map_zipWith]
        congr 2
        funext c x
        by_cases hc : c = some 0 <;> simp [hc]
      · intro i x hx
        have hi : i < xs.length := (List.getElem?_eq_some_iff.1 hx).1
        have hmi : m[i]? = some m[i] := List.getElem?_eq_getElem (by omega)
        rw [List.getElem?_zipWith, hmi, hx]
        constructor
        · intro h
          have := h m rfl
          rw [hmi] at this
          have hne : m[i] ≠ some 0 := by simpa using this
          simp [hne]
        · rintro ⟨m', h1, h2⟩
          simp only [Option.some.injEq] at h1
          subst h1
          rw [hmi] at h2
          simp only [Option.some.injEq] at h2
          simp [h2]
  refine ⟨List.zipWith streamDayValue (ms.map some) (regs.map some), ms.map some, ?_, ?_, by simp [hml, hl], by simp [hml], ?_⟩
  · unfold variableValues
    simp only [hms, Bind.bind, Except.bind, if_true]
    unfold Rates.toStreamDay npOp
    rw [if_pos (by simp [hml, hl])]
  · unfold variableValues
    simp only [hms, Bind.bind, Except.bind, Bool.false_eq_true, if_false, Pure.pure, Except.pure]
  · intro i x g hx hg
    obtain ⟨h1, h2⟩ := hmv i x hx
    have hv : ∀ y, ms[i]? = some y → (List.zipWith streamDayValue (ms.map some) (regs.map some))[i]? =
        some (streamDayValue (some y) (some g)) := by
      intro y hy
      rw [List.getElem?_zipWith, List.getElem?_map, List.getElem?_map, hy, hg]
      rfl
    constructor
    · intro hc
      have := h1 hc
      refine ⟨by rw [List.getElem?_map, this]; rfl, fun hg0 => ⟨x / g, ?_, by field_simp⟩⟩
      rw [hv x this]
      simp [streamDayValue, Fl.div, hg0]
    · intro hc
      have := h2 hc
      refine ⟨by rw [List.getElem?_map, this]; rfl, ?_⟩
      rw [hv 0 this]
      by_cases hg0 : g = 0 <;> simp [streamDayValue, Fl.div, hg0]

/-! ## Findings -/

/-- Finding: a condition that is false does not switch a tabulated consumer off. It sets the variable to zero, and the consumer
uses what the table gives for zero. -/
theorem C52_condition_not_off : ∃ t xs r, EnergyTable.make ["RATE", "POWER"] [[0, 10], [3, 5]] = .ok t ∧
    variableValues true (some [some 0]) [some 7] [some 1] = .ok xs ∧ t.evaluate [⟨0, 1⟩] [("RATE", xs)] none = .ok r ∧
    r.usage = [some 3] ∧ r.valid = [true] := by
  refine ⟨⟨.power, "RATE", [(0, 3), (10, 5)]⟩, [some 0], ⟨[⟨0, 1⟩], [some 3], .MEGA_WATT, some [some 3], false, none⟩, ?_, ?_, ?_,
    rfl, rfl⟩ <;> decide +kernel

/-- Finding: with a table that does not start at zero such a period is even invalid. -/
theorem C52_condition_invalid : ∃ t xs r, EnergyTable.make ["RATE", "POWER"] [[1, 10], [3, 5]] = .ok t ∧
    variableValues true (some [some 0]) [some 7] [some 1] = .ok xs ∧ t.evaluate [⟨0, 1⟩] [("RATE", xs)] none = .ok r ∧
    r.usage = [none] ∧ r.valid = [false] := by
  refine ⟨⟨.power, "RATE", [(1, 3), (10, 5)]⟩, [some 0], ⟨[⟨0, 1⟩], [none], .MEGA_WATT, some [none], false, none⟩, ?_, ?_, ?_,
    rfl, rfl⟩ <;> decide +kernel

/-- Finding: in a table with both a POWER and a FUEL column the fuel is taken for the variable. -/
theorem C52_power_and_fuel (ys zs : List ℚ) (hl : ys.length = zs.length) (hne : zs ≠ []) :
    EnergyTable.make ["POWER", "FUEL"] [ys, zs] = .ok ⟨.power, "FUEL", zs.zip ys⟩ := by
  have e1 : column ["POWER", "FUEL"] [ys, zs] "FUEL" = .ok zs := column_ok _ _ _ 1 zs rfl (by
    intro j hj
    have : j = 0 := by omega
    subst this
    decide) rfl
  have e2 : column ["POWER", "FUEL"] [ys, zs] "POWER" = .ok ys := column_ok _ _ _ 0 ys rfl (by simp) rfl
  have e3 : usageType ["POWER", "FUEL"] = .power := rfl
  have e4 : requiredVariables ["POWER", "FUEL"] = ["FUEL"] := by decide
  unfold EnergyTable.make
  rw [if_neg (by simp), if_neg (by simp [hl]), if_neg (by simp), e4, e3]
  simp only [e1, UsageType.header, e2, Bind.bind, Except.bind, hne, if_false, Pure.pure, Except.pure]

/-! ## Non-vacuity -/

example : (do
    let t ← EnergyTable.make ["RATE", "FUEL"] [[10, 0, 20], [5, 1, 5]]
    t.evaluate [⟨0, 1⟩, ⟨1, 2⟩, ⟨2, 3⟩, ⟨3, 4⟩] [("RATE", [some 10, some 5, some 15, some 21])] none) =
    .ok ⟨[⟨0, 1⟩, ⟨1, 2⟩, ⟨2, 3⟩, ⟨3, 4⟩], [some 5, some 3, some 5, none], .STANDARD_CUBIC_METER_PER_DAY, none, false, none⟩ := by
  decide +kernel

example : variableValues true (some [some 1, some 0]) [some 6, some 7] [some (1 / 2), some 1] = .ok [some 12, some 0] := by
  decide +kernel

end Verif.C52
