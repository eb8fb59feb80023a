import Verif.Model.Prognosis
import Verif.Props.C10
import Verif.Props.C47

/-! # C94 — The prognosis reports say how much of what, and each amount once -/

namespace Verif.C94
open Verif.Time Verif.Rates Verif.Units Verif.Exporter Verif.Numbers Verif.Prognosis Verif.C05 Verif.C47

/-- Specification: the part of the amounts that falls inside `q` when each is spread evenly over its period. -/
def falls (pts : List (Period × Fl)) (q : Period) : ℚ :=
  (pts.map fun pv => pv.2.getD 0 * (C09.commonTime pv.1 q : ℚ) / ((pv.1.stop - pv.1.start : Int) : ℚ)).sum

theorem falls_append (a b : List (Period × Fl)) (q : Period) : falls (a ++ b) q = falls a q + falls b q := by
  simp [falls]

theorem falls_cons (x : Period × Fl) (b : List (Period × Fl)) (q : Period) :
    falls (x :: b) q = falls [x] q + falls b q := by
  simp [falls]

/-- Summing first and spreading the sums is spreading each amount. -/
theorem inside_falls (ps : Periods) (hnd : ps.Nodup) (pts : List (Period × Fl)) (hp : ∀ pv ∈ pts, pv.1 ∈ ps) (q : Period) :
    C09.volumeInside ps (ps.map fun p => some (total pts p)) q = falls pts q := by
  have hz : ∀ (ps : Periods) (g : Period → ℚ), C09.volumeInside ps (ps.map fun p => some (g p)) q =
      (ps.map fun p => g p * (C09.commonTime p q : ℚ) / ((p.stop - p.start : Int) : ℚ)).sum := by
    intro ps g
    induction ps with
    | nil => rfl
    | cons a t ih =>
      simp only [C09.volumeInside, List.map_cons, List.zip_cons_cons, List.sum_cons, Option.getD_some] at ih ⊢
      rw [ih]
  rw [hz]
  induction pts with
  | nil => simp [total, falls]
  | cons x t ih =>
    have ih := ih fun pv h => hp pv (by simp [h])
    rw [falls_cons, ← ih]
    have hx := hp x (by simp)
    have h1 : ∀ (ps : Periods), ps.Nodup → (ps.map fun p =>
        (if x.1 = p then x.2.getD 0 else 0) * (C09.commonTime p q : ℚ) / ((p.stop - p.start : Int) : ℚ)).sum =
        if x.1 ∈ ps then falls [x] q else 0 := by
      intro ps hn
      induction ps with
      | nil => simp
      | cons a s ihs =>
        rw [List.nodup_cons] at hn
        rw [List.map_cons, List.sum_cons, ihs hn.2]
        by_cases ha : x.1 = a
        · subst ha
          simp [hn.1, falls]
        · simp [ha]
    have h2 := h1 ps hnd
    rw [if_pos hx] at h2
    rw [← h2, ← List.sum_map_add]
    congr 1
    refine List.map_congr_left fun p _ => ?_
    rw [total_cons]
    ring

theorem wf_lt {p : Period} {t : Periods} (h : WF (p :: t)) : ∀ q ∈ t, p.stop ≤ q.start := by
  induction t generalizing p with
  | nil => simp
  | cons a t ih =>
    obtain ⟨h1, h2, h3⟩ := h
    intro q hq
    rcases List.mem_cons.1 hq with rfl | hq
    · omega
    · have := ih h3 q hq
      have := wf_nonempty h3 a (by simp)
      omega

theorem wf_disjoint {ps : Periods} (h : WF ps) : ∀ p ∈ ps, ∀ q ∈ ps, p ≠ q → C09.commonTime p q = 0 := by
  induction ps with
  | nil => simp
  | cons a t ih =>
    have ht : WF t := by
      cases t with
      | nil => trivial
      | cons b t => exact h.2.2
    have hlt := wf_lt h
    intro p hp q hq hne
    unfold C09.commonTime
    rcases List.mem_cons.1 hp with hp | hp <;> rcases List.mem_cons.1 hq with hq | hq
    · exact absurd (hp.trans hq.symm) hne
    · have := hlt q hq
      rw [hp]
      omega
    · have := hlt p hp
      rw [hq]
      omega
    · exact ih ht p hp q hq hne

/-- In a period of the calculation falls what was summed for it. -/
theorem total_falls (ps : Periods) (hw : WF ps) (pts : List (Period × Fl)) (hp : ∀ pv ∈ pts, pv.1 ∈ ps) (q : Period)
    (hq : q ∈ ps) : total pts q = falls pts q := by
  induction pts with
  | nil => rfl
  | cons x t ih =>
    rw [total_cons, falls_cons, ih fun pv h => hp pv (by simp [h])]
    congr 1
    have hx := hp x (by simp)
    by_cases he : x.1 = q
    · have := wf_nonempty hw q hq
      have hc : C09.commonTime x.1 q = q.stop - q.start := by
        rw [he]
        unfold C09.commonTime
        omega
      have hne : ((q.stop - q.start : Int) : ℚ) ≠ 0 := by
        have : q.stop - q.start ≠ 0 := by omega
        exact_mod_cast this
      rw [if_pos he]
      simp only [falls, List.map_cons, List.map_nil, List.sum_cons, List.sum_nil, add_zero]
      rw [hc, he, mul_div_assoc, div_self hne, mul_one]
    · rw [if_neg he]
      simp [falls, wf_disjoint hw x.1 hx q hq he]

theorem resample_wf {ps nps : Periods} {freq : Frequency} {a b : Bool} (hps : WF ps)
    (h : resamplePeriods ps freq a b = .ok nps) : WF nps := by
  unfold resamplePeriods at h
  split at h
  · cases h
    exact hps
  · split at h
    · cases h
      rw [C19.create_pairs]
      exact C10.pairs_wf _ (by unfold createStartAndEndDates; exact pairwise_sortedSet _)
    · cases h

/-- One column of amounts, at any frequency. -/
theorem volumes {f : Filter} {k : Bool} {unit : EUnit} {freq : Frequency} {e : Exportable} {attrs : List Attribute}
    (hw : WF e.periods) (hpos : ∀ p ∈ e.periods, 0 ≤ p.start) (hr : Ready f k unit e attrs) {nps : Periods}
    (hn : resamplePeriods e.periods freq true true = .ok nps) (hne : nps ≠ []) :
    queryVolumes f k unit freq e attrs = .ok (some (nps.map fun q => (q, some (falls (wanted f attrs) q)))) := by
  by_cases hf : freq = .none
  · subst hf
    have : nps = e.periods := by
      rw [C06.C06_none] at hn
      exact (Except.ok.inj hn).symm
    subst this
    rw [C47_column f k unit e attrs (wf_nodup hw) hr]
    congr 2
    exact List.map_congr_left fun q hq => by rw [total_falls _ hw _ hr.periods q hq]
  · rw [C47_column_resampled f k unit freq hf e attrs hw hpos hr nps hn hne]
    congr 2
    exact List.map_congr_left fun q _ => by rw [inside_falls _ (wf_nodup hw) _ hr.periods]

theorem mapM_keys {α β ε : Type} (g : α → Except ε β) (h : β → α) (hg : ∀ a b, g a = .ok b → h b = a) (l : List α)
    (r : List β) (hr : l.mapM g = .ok r) : r.map h = l := by
  induction l generalizing r with
  | nil =>
    rw [List.mapM_nil] at hr
    cases hr
    rfl
  | cons a t ih =>
    rw [List.mapM_cons] at hr
    rcases ha : g a with err | b
    · rw [ha] at hr
      exact absurd hr (by simp [Bind.bind, Except.bind])
    · rcases ht : t.mapM g with err | bs
      · rw [ha, ht] at hr
        exact absurd hr (by simp [Bind.bind, Except.bind])
      · rw [ha, ht] at hr
        cases Except.ok.inj hr
        rw [List.map_cons, hg a b ha, ih bs ht]

/-- The peaks, whatever they are, are there for every reporting period. -/
theorem peaks {f : Filter} {unit : EUnit} {freq : Frequency} {e : Exportable} {attrs : List Attribute}
    (hw : WF e.periods) {nps : Periods} (hn : resamplePeriods e.periods freq true true = .ok nps)
    {d : List (Period × Fl)} (hd : queryMax f unit freq e attrs = .ok (some d)) : d.map (·.1) = nps := by
  unfold queryMax at hd
  split at hd
  · cases hd
  · simp only [hn, Bind.bind, Except.bind] at hd
    split at hd
    · cases hd
    · rename_i items hi
      cases Except.ok.inj hd
      have hk : items.map (·.1) = nps := by
        refine mapM_keys _ (fun b : Period × Fl => b.1) ?_ nps items hi
        intro p b hb
        split at hb
        · cases hb
        · split at hb
          · cases hb
          · split at hb
            · cases hb
            · split at hb
              · cases hb
              · cases Except.ok.inj hb
                rfl
      have hnd : (items.map (·.1)).Nodup := by
        rw [hk]
        exact resamplePeriods_nodup (wf_nodup hw) hn
      rw [toDict_nodup hnd, hk]

/-! ## The report -/

/-- Specification: a column belongs into the report of an installation. -/
def Asked (c : Column) (e : Exportable) : Prop := c.filter.installation = none ∨ c.filter.installation = e.category

instance (c : Column) (e : Exportable) : Decidable (Asked c e) := inferInstanceAs (Decidable (_ ∨ _))

/-- Specification: the columns of the report of an installation. -/
def asked (columns : List Column) (e : Exportable) : List Column := columns.filter fun c => decide (Asked c e)

/-- Specification: what a column shows for a reporting period. -/
def Shows (c : Column) (freq : Frequency) (e : Exportable) (attrs : List Attribute) (q : Period) (text : String) : Prop :=
  if c.query = .peak then
    ∃ d v, queryMax c.filter c.unit freq e attrs = .ok (some d) ∧ d.lookup q = some v ∧ text = cellText (c.modifier v)
  else ∃ t, format ((if c.invert then -1 else 1) * falls (wanted c.filter attrs) q) 6 = .ok t ∧ text = t.text

/-- What a report needs to know about its input. -/
structure Given (columns : List Column) (freq : Frequency) (e : Exportable) (d : Data) : Prop where
  periods : WF e.periods
  positive : ∀ p ∈ e.periods, 0 ≤ p.start
  data : ∀ c ∈ columns, Asked c e → ∃ attrs, d.of c.query c.unit = .ok attrs ∧ Finite (wanted c.filter attrs) ∧
    (∀ pv ∈ wanted c.filter attrs, pv.1 ∈ e.periods) ∧
    (c.query = .peak → ∃ m, queryMax c.filter c.unit freq e attrs = .ok (some m))

theorem wrong_iff (c : Column) (e : Exportable) : wrongInstallation c.filter e = true ↔ ¬Asked c e := by
  unfold wrongInstallation equalOr Asked
  rcases c.filter.installation with _ | w
  · simp
  · simp only [reduceCtorEq, false_or, Bool.not_eq_true', decide_eq_false_iff_not]
    exact not_congr ⟨Eq.symm, Eq.symm⟩

theorem asked_category {c : Column} {e : Exportable} (h : Asked c e) :
    ∀ w, c.filter.installation = some w → e.category = some w := by
  intro w hw
  rcases h with h | h
  · rw [h] at hw
    cases hw
  · rw [← h, hw]

theorem apply_some {β : Type} (m : Fl → β) {d : List (Period × Fl)} (h : d ≠ []) :
    apply m (some d) = some (d.map fun pv => (pv.1, m pv.2)) := by
  cases d with
  | nil => exact absurd rfl h
  | cons a t => rfl

theorem format_six (x : ℚ) : ∃ t, format x 6 = .ok t := by
  unfold format
  rw [if_neg (by decide)]
  split
  · exact ⟨_, rfl⟩
  · exact ⟨_, rfl⟩

theorem inverted_some (x : ℚ) : inverted (some x) = some (-1 * x) := by
  unfold inverted
  by_cases h : x = 0
  · subst h
    simp
  · rw [if_neg (by simpa using h)]
    rfl

theorem map_fst {α β : Type} [DecidableEq α] (l : List (α × β)) (hn : (l.map (·.1)).Nodup) (g : α → β)
    (hg : ∀ x ∈ l, l.lookup x.1 = some (g x.1)) : l = (l.map (·.1)).map fun a => (a, g a) := by
  have : ∀ (m : List (α × β)), (m.map (·.1)).Nodup → ∀ x ∈ m, m.lookup x.1 = some x.2 := by
    intro m hm
    induction m with
    | nil => simp
    | cons a t ih =>
      rw [List.map_cons, List.nodup_cons] at hm
      intro x hx
      rw [show a = (a.1, a.2) from rfl, List.lookup_cons]
      rcases List.mem_cons.1 hx with rfl | hx
      · simp
      · have : x.1 ≠ a.1 := fun e => hm.1 (by rw [← e]; exact List.mem_map_of_mem hx)
        rw [beq_eq_false_iff_ne.2 this]
        exact ih hm.2 x hx
  rw [List.map_map]
  conv_lhs => rw [← List.map_id l]
  refine List.map_congr_left fun x hx => ?_
  have h1 := this l hn x hx
  have h2 := hg x hx
  rw [h1] at h2
  simp only [id, Function.comp, ← Option.some.inj h2]

/-- One column of the report, if it belongs there. -/
theorem column_result {columns : List Column} {freq : Frequency} {e : Exportable} {d : Data}
    (hg : Given columns freq e d) {nps : Periods} (hn : resamplePeriods e.periods freq true true = .ok nps)
    (hne : nps ≠ []) {c : Column} (hc : c ∈ columns)
    (hu : c.query = .emission → ∃ g h, c.unit.to .KILO = .ok g ∧ EUnit.KILO.to c.unit = .ok h) :
    ∃ text : Period → Option Numeral,
      c.result freq e d = .ok (if Asked c e then some (c, nps.map fun q => (q, text q)) else none) ∧
      (Asked c e → ∀ attrs, d.of c.query c.unit = .ok attrs → ∀ q ∈ nps, Shows c freq e attrs q (cellText (text q))) := by
  by_cases ha : Asked c e
  swap
  · refine ⟨fun _ => none, ?_, fun h => absurd h ha⟩
    unfold Column.result Column.values
    rw [if_pos ((wrong_iff c e).2 ha), if_neg ha]
    rfl
  obtain ⟨attrs, h1, h2, h3, h4⟩ := hg.data c hc ha
  have hwrong : ¬wrongInstallation c.filter e = true := fun h => (wrong_iff c e).1 h ha
  have hnps : nps.Nodup := resamplePeriods_nodup (wf_nodup hg.periods) hn
  by_cases hp : c.query = .peak
  · obtain ⟨m, hm⟩ := h4 hp
    have hk := peaks hg.periods hn hm
    have hmne : m ≠ [] := by
      rintro rfl
      exact hne hk.symm
    refine ⟨fun q => c.modifier ((m.lookup q).getD none), ?_, ?_⟩
    · unfold Column.result Column.values
      rw [if_neg hwrong, if_pos ha]
      rw [hp] at h1
      simp only [hp, h1, hm, Bind.bind, Except.bind, pure, Except.pure]
      rw [apply_some _ hmne]
      have hl : ∀ x ∈ m, m.lookup x.1 = some ((m.lookup x.1).getD none) := by
        intro x hx
        rcases hl : m.lookup x.1 with _ | v
        · rw [List.lookup_eq_none_iff] at hl
          exact absurd (hl x hx) (by simp)
        · rfl
      have hm2 := map_fst m (by rw [hk]; exact hnps) (fun q => (m.lookup q).getD none) hl
      rw [hk] at hm2
      simp only [Option.map_some]
      congr 3
      conv_lhs => rw [hm2]
      rw [List.map_map]
      rfl
    · intro _ attrs' h1' q hq
      rw [h1] at h1'
      cases Except.ok.inj h1'
      unfold Shows
      rw [if_pos hp]
      have : q ∈ m.map (·.1) := by rw [hk]; exact hq
      obtain ⟨x, hx, hxe⟩ := List.mem_map.1 this
      rcases hl : m.lookup q with _ | v
      · rw [List.lookup_eq_none_iff] at hl
        exact absurd (hl x hx) (by simp [hxe])
      · exact ⟨m, v, hm, hl, by simp only [hl, Option.getD_some]⟩
  · have hv : c.values freq e d = .ok (some (nps.map fun q => (q, some (falls (wanted c.filter attrs) q)))) := by
      unfold Column.values
      rw [if_neg hwrong]
      have hr : ∀ k, (k = true → ∃ g h, c.unit.to .KILO = .ok g ∧ EUnit.KILO.to c.unit = .ok h) →
          Ready c.filter k c.unit e attrs := fun k hk => ⟨asked_category ha, h2, h3, hk⟩
      have hv := fun k hk => volumes (freq := freq) hg.periods hg.positive (hr k hk) hn hne
      simp only [h1, Bind.bind, Except.bind]
      rcases hq : c.query with _ | _ | _ | _ | _ | _
      · exact hv false (by simp)
      · exact hv true (fun _ => hu hq)
      · exact hv false (by simp)
      · exact hv false (by simp)
      · exact absurd hq hp
      · exact hv false (by simp)
    refine ⟨fun q => c.modifier (some (falls (wanted c.filter attrs) q)), ?_, ?_⟩
    · unfold Column.result
      rw [hv, if_pos ha]
      simp only [Bind.bind, Except.bind, pure, Except.pure]
      rw [apply_some _ (by simpa using hne), List.map_map]
      rfl
    · intro _ attrs' h1' q hq
      rw [h1] at h1'
      cases Except.ok.inj h1'
      unfold Shows
      rw [if_neg hp]
      obtain ⟨t, ht⟩ := format_six ((if c.invert then -1 else 1) * falls (wanted c.filter attrs) q)
      refine ⟨t, ht, ?_⟩
      unfold Column.modifier
      by_cases hi : c.invert = true
      · rw [if_pos hi] at ht
        simp only [hi, if_true, inverted_some, shown, ht, cellText]
      · rw [if_neg hi, one_mul] at ht
        simp only [hi, Bool.false_eq_true, if_false, shown, ht, cellText]

theorem mapM_map {α β ε : Type} (g : α → Except ε β) (h : α → β) (l : List α) (hg : ∀ a ∈ l, g a = .ok (h a)) :
    l.mapM g = .ok (l.map h) := mapM_ok_of g h l hg

theorem filterMap_ite {α β : Type} (P : α → Prop) [DecidablePred P] (g : α → β) (l : List α) :
    (l.map fun a => if P a then some (g a) else none).filterMap id = (l.filter fun a => decide (P a)).map g := by
  induction l with
  | nil => rfl
  | cons a t ih =>
    rw [List.map_cons]
    by_cases h : P a
    · rw [if_pos h, List.filterMap_cons_some (by rfl), ih, List.filter_cons_of_pos (by simpa using h), List.map_cons]
    · rw [if_neg h, List.filterMap_cons_none (by rfl), ih, List.filter_cons_of_neg (by simpa using h)]

theorem find_name (A : List Column) (hA : (A.map (·.name)).Nodup) (g : Column → List (Period × Option Numeral)) :
    ∀ c ∈ A, (A.map fun c => (c, g c)).find? (fun r' => decide (r'.1.name = c.name)) = some (c, g c) := by
  induction A with
  | nil => simp
  | cons a t ih =>
    rw [List.map_cons, List.nodup_cons] at hA
    intro c hc
    rw [List.map_cons]
    rcases List.mem_cons.1 hc with rfl | hc
    · rw [List.find?_cons_of_pos (by simp)]
    · have : a.name ≠ c.name := fun e => hA.1 (by rw [e]; exact List.mem_map_of_mem hc)
      rw [List.find?_cons_of_neg (by simpa using this)]
      exact ih hA.2 c hc

theorem report_eq (columns : List Column) (hnames : (columns.map (·.name)).Nodup)
    (hunits : ∀ c ∈ columns, c.query = .emission → ∃ g h, c.unit.to .KILO = .ok g ∧ EUnit.KILO.to c.unit = .ok h)
    (year month : DateTime → String) (freq : Frequency) (e : Exportable) (d : Data) (hasked : asked columns e ≠ [])
    (hg : Given columns freq e d) (nps : Periods) (hn : resamplePeriods e.periods freq true true = .ok nps)
    (hne : nps ≠ []) :
    ∃ text : Column → Period → String,
      report columns year month freq e d = .ok (
        ("forecastYear" :: "forecastMonth" :: (asked columns e).map (·.name)) ::
        ("#Years" :: "Months" :: (asked columns e).map Column.heading) ::
        nps.map fun q => year q.start :: month q.start :: (asked columns e).map fun c => text c q) ∧
      ∀ c ∈ asked columns e, ∀ attrs, d.of c.query c.unit = .ok attrs → ∀ q ∈ nps, Shows c freq e attrs q (text c q) := by
  have hex : ∀ c, ∃ T : Period → Option Numeral, c ∈ columns →
      c.result freq e d = .ok (if Asked c e then some (c, nps.map fun q => (q, T q)) else none) ∧
      (Asked c e → ∀ attrs, d.of c.query c.unit = .ok attrs → ∀ q ∈ nps, Shows c freq e attrs q (cellText (T q))) := by
    intro c
    by_cases hc : c ∈ columns
    · obtain ⟨T, h1, h2⟩ := column_result hg hn hne hc (hunits c hc)
      exact ⟨T, fun _ => ⟨h1, h2⟩⟩
    · exact ⟨fun _ => none, fun h => absurd h hc⟩
  choose T hT using hex
  set A := asked columns e with hA
  have hAn : (A.map (·.name)).Nodup := hnames.sublist (List.filter_sublist.map _)
  have hAmem : ∀ c ∈ A, c ∈ columns ∧ Asked c e := by
    intro c hc
    rw [hA, asked, List.mem_filter] at hc
    exact ⟨hc.1, by simpa using hc.2⟩
  have hres : results columns freq e d = .ok (A.map fun c => (c, nps.map fun q => (q, T c q))) := by
    unfold results
    rw [mapM_map _ (fun c => if Asked c e then some (c, nps.map fun q => (q, T c q)) else none) columns
      fun c hc => (hT c hc).1]
    simp only [Except.map]
    rw [filterMap_ite (fun c => Asked c e)]
    rfl
  refine ⟨fun c q => cellText (T c q), ?_, ?_⟩
  · unfold report sheet
    rw [hres]
    have htab := C47_table nps (resample_wf hg.periods hn) (A.map fun c => (c.name, T c)) (by simpa using hasked)
      (by simpa [Function.comp_def] using hAn)
    simp only [List.map_map, Function.comp_def] at htab
    simp only [Bind.bind, Except.bind, pure, Except.pure, List.map_map, Function.comp_def]
    rw [htab.1]
    dsimp only
    rw [mapM_map _ (fun q => year q.start :: month q.start :: A.map fun c => cellText (T c q)) nps]
    · dsimp only
      congr 3
      congr 2
      refine List.map_congr_left fun c hc => ?_
      rw [find_name A hAn _ c hc]
    · intro q hq
      have : (A.map fun c => (c, nps.map fun q => (q, T c q))).mapM
          (fun r => cell (A.map fun c => (c.name, nps.map fun q => (q, T c q))) q r.1.name) =
          .ok ((A.map fun c => (c, nps.map fun q => (q, T c q))).map fun r => T r.1 q) := by
        refine mapM_map _ _ _ ?_
        intro r hr
        obtain ⟨c, hc, rfl⟩ := List.mem_map.1 hr
        exact htab.2 (c.name, T c) (List.mem_map_of_mem hc) q hq
      rw [this]
      simp [List.map_map, Function.comp_def]
  · intro c hc attrs ha q hq
    exact (hT c (hAmem c hc).1).2 (hAmem c hc).2 attrs ha q hq

/-! ## What is counted where -/

/-- Specification: the words of a source that matter. -/
def fuels : List String := ["FUEL-GAS", "DIESEL"]

def consumers : List String := ["TURBINE-GENERATOR", "GAS-DRIVEN-COMPRESSOR", "FLARE", "BOILER", "HEATER",
  "COLD-VENTING-FUGITIVE", "STORAGE", "LOADING"]

def emissions : List String := ["co2", "nox", "nmvoc", "ch4"]

def only (known : List String) : Option String → Option String
  | none => none
  | some s => if s ∈ known then some s else none

theorem only_mem (known : List String) (o : Option String) : only known o ∈ none :: known.map some := by
  rcases o with _ | s
  · simp [only]
  · by_cases h : s ∈ known <;> simp [only, h]

theorem only_eq {known : List String} {w : String} (hw : w ∈ known) (o : Option String) :
    only known o = some w ↔ o = some w := by
  rcases o with _ | s
  · simp [only]
  · by_cases h : s ∈ known
    · simp [only, h]
    · have : s ≠ w := fun e => h (e ▸ hw)
      simp [only, h, this]

theorem equalOr_only {known : List String} (w : Option String) (hw : ∀ s, w = some s → s ∈ known) (o : Option String) :
    equalOr w (only known o) = equalOr w o := by
  rcases w with _ | w
  · rfl
  · simp only [equalOr, only_eq (hw w rfl)]

theorem memberOr_only {known : List String} (ws : Option (List String)) (hw : ∀ l, ws = some l → ∀ s ∈ l, s ∈ known)
    (o : Option String) : memberOr ws (only known o) = memberOr ws o := by
  rcases ws with _ | l
  · rfl
  · rcases o with _ | s
    · rfl
    · by_cases h : s ∈ known
      · simp [memberOr, only, h]
      · have : s ∉ l := fun e => h (hw l rfl s e)
        simp [memberOr, only, h, this]

/-- The filter mentions nothing else. -/
def Mentions (f : Filter) : Prop :=
  (∀ s ∈ f.fuel.toList, s ∈ fuels) ∧ (∀ l ∈ f.consumers.toList, ∀ s ∈ l, s ∈ consumers) ∧ f.producers = none ∧
    (∀ s ∈ f.emission.toList, s ∈ emissions)

instance (f : Filter) : Decidable (Mentions f) := inferInstanceAs (Decidable (_ ∧ _ ∧ _ ∧ _))

/-- The same source with all other words forgotten. -/
def simple (m : Meta) : Meta := ⟨only fuels m.fuel, only consumers m.consumer, none, only emissions m.emission⟩

theorem keeps_simple {f : Filter} (h : Mentions f) (m : Meta) : keeps f (simple m) = keeps f m := by
  obtain ⟨h1, h2, h3, h4⟩ := h
  unfold keeps simple
  dsimp only
  rw [equalOr_only f.fuel (fun s e => h1 s (by simp [e])), equalOr_only f.emission (fun s e => h4 s (by simp [e])),
    memberOr_only f.consumers (fun l e => h2 l (by simp [e])), h3]
  rfl

/-- Specification: in how many columns of the long term prognosis an emission is counted. -/
def times (category : Option String) (m : Meta) : ℕ :=
  let burns := fun fuel => decide (m.fuel = some fuel)
  let is := fun names => decide (m.consumer ∈ names.map some)
  if category = some "FIXED" then
    (burns "DIESEL").toNat + (burns "DIESEL" && is ["BOILER", "HEATER"]).toNat +
      (burns "FUEL-GAS" && is ["TURBINE-GENERATOR", "GAS-DRIVEN-COMPRESSOR", "BOILER", "HEATER"]).toNat +
      (is ["FLARE"]).toNat + (is ["COLD-VENTING-FUGITIVE"] && m.emission ≠ some "nox").toNat +
      (is ["STORAGE", "LOADING"] && decide (m.emission ∈ [some "nmvoc", some "ch4"])).toNat
  else if category = some "MOBILE" then
    (burns "DIESEL").toNat +
      (is ["COLD-VENTING-FUGITIVE"] && decide (m.emission ∈ [some "nmvoc", some "ch4"])).toNat
  else 0

/-- Specification: the columns of one emission in the report of a category. -/
def emissionColumns (columns : List Column) (category : Option String) (em : String) : List Column :=
  columns.filter fun c => decide (c.query = .emission ∧ c.filter.installation = category ∧ c.filter.emission = some em)

theorem count_finite : ∀ cat ∈ [some "FIXED", some "MOBILE"], ∀ em ∈ emissions, ∀ f ∈ none :: fuels.map some,
    ∀ c ∈ none :: consumers.map some,
    ((emissionColumns ltp cat em).filter fun col => keeps col.filter ⟨f, c, none, some em⟩).length =
      times cat ⟨f, c, none, some em⟩ := by
  decide +kernel

theorem times_simple (cat : Option String) (m : Meta) (hm : ∃ em ∈ emissions, m.emission = some em) :
    times cat (simple m) = times cat m := by
  obtain ⟨em, hem, he⟩ := hm
  have h4 : only emissions m.emission = m.emission := by
    rw [he]
    simp [only, hem]
  have hf : ∀ w ∈ fuels, (only fuels m.fuel = some w) = (m.fuel = some w) := fun w hw => propext (only_eq hw _)
  have hc : ∀ w ∈ consumers, (only consumers m.consumer = some w) = (m.consumer = some w) :=
    fun w hw => propext (only_eq hw _)
  unfold times simple
  simp only [h4, List.map_cons, List.map_nil, List.mem_cons, List.not_mem_nil, or_false,
    hf "DIESEL" (by decide), hf "FUEL-GAS" (by decide), hc "BOILER" (by decide), hc "HEATER" (by decide),
    hc "TURBINE-GENERATOR" (by decide), hc "GAS-DRIVEN-COMPRESSOR" (by decide), hc "FLARE" (by decide),
    hc "COLD-VENTING-FUGITIVE" (by decide), hc "STORAGE" (by decide), hc "LOADING" (by decide)]

theorem ltp_mentions : ∀ c ∈ ltp, c.query = .emission ∨ c.query = .fuel → Mentions c.filter := by
  decide +kernel

/-- Every source is counted as often as specified. -/
theorem count (cat : Option String) (hcat : cat ∈ [some "FIXED", some "MOBILE"]) (em : String) (hem : em ∈ emissions)
    (m : Meta) (hm : m.emission = some em) :
    ((emissionColumns ltp cat em).filter fun col => keeps col.filter m).length = times cat m := by
  rw [← times_simple cat m ⟨em, hem, hm⟩]
  have hs : simple m = ⟨only fuels m.fuel, only consumers m.consumer, none, some em⟩ := by
    unfold simple
    rw [hm]
    simp [only, hem]
  rw [show ((emissionColumns ltp cat em).filter fun col => keeps col.filter m) =
    (emissionColumns ltp cat em).filter fun col => keeps col.filter (simple m) from ?_, hs]
  · exact count_finite cat hcat em hem _ (only_mem _ _) _ (only_mem _ _)
  · refine List.filter_congr fun c hc => ?_
    unfold emissionColumns at hc
    rw [List.mem_filter, decide_eq_true_eq] at hc
    rw [keeps_simple (ltp_mentions c hc.1 (Or.inl hc.2.1))]

theorem wanted_cons (f : Filter) (x : Attribute) (l : List Attribute) (q : Period) : falls (wanted f (x :: l)) q =
    (if keeps f x.info then falls x.points q else 0) + falls (wanted f l) q := by
  by_cases hk : keeps f x.info
  · simp [wanted, hk, falls_append]
  · simp [wanted, hk]

theorem sum_count (cs : List Column) (m : Meta) (v : ℚ) :
    (cs.map fun c => if keeps c.filter m then v else 0).sum =
      ((cs.filter fun c => keeps c.filter m).length : ℚ) * v := by
  induction cs with
  | nil => simp
  | cons g t ih =>
    by_cases hk : keeps g.filter m
    · simp [hk, ih]
      ring
    · simp [hk, ih]

/-- The sum of columns counts each source as often as there are columns that keep it. -/
theorem columns_sum (cs : List Column) (attrs : List Attribute) (q : Period) :
    (cs.map fun c => falls (wanted c.filter attrs) q).sum =
      (attrs.map fun a => ((cs.filter fun c => keeps c.filter a.info).length : ℚ) * falls a.points q).sum := by
  induction attrs with
  | nil =>
    have : ∀ cs : List Column, (cs.map fun c => falls (wanted c.filter []) q).sum = 0 := by
      intro cs
      induction cs with
      | nil => rfl
      | cons g t ih => rw [List.map_cons, List.sum_cons, ih, add_zero]; rfl
    rw [this]
    rfl
  | cons a t ih =>
    rw [List.map_congr_left fun c _ => wanted_cons c.filter a t q, List.sum_map_add, ih, sum_count, List.map_cons,
      List.sum_cons]

theorem other_emission (cs : List Column) (em : String) (hcs : ∀ c ∈ cs, c.filter.emission = some em) (m : Meta)
    (hm : m.emission ≠ some em) : (cs.filter fun c => keeps c.filter m) = [] := by
  rw [List.filter_eq_nil_iff]
  intro c hc
  simp [keeps, equalOr, hcs c hc, hm]

/-- **Emissions, each as often as the table says.** For every fixed or mobile installation, each of the four emissions,
and any sources: the sum of all its columns in the long term prognosis is the sum over the sources of what they emit in
the row, each taken `times`. -/
theorem C94_emissions (cat : Option String) (hcat : cat ∈ [some "FIXED", some "MOBILE"]) (em : String)
    (hem : em ∈ emissions) (attrs : List Attribute) (q : Period) :
    ((emissionColumns ltp cat em).map fun c => falls (wanted c.filter attrs) q).sum =
      (attrs.map fun a => if a.info.emission = some em then (times cat a.info : ℚ) * falls a.points q else 0).sum := by
  rw [columns_sum]
  congr 1
  refine List.map_congr_left fun a _ => ?_
  by_cases he : a.info.emission = some em
  · rw [if_pos he, count cat hcat em hem a.info he]
  · rw [if_neg he, other_emission _ em (fun c hc => ?_) a.info he]
    · simp
    · unfold emissionColumns at hc
      rw [List.mem_filter, decide_eq_true_eq] at hc
      exact hc.2.2.2

/-- Specification: the totals of the short term prognosis. -/
def totals : List (String × String × String) :=
  [("co2Emission", "FIXED", "co2"), ("co2FromMobileUnits", "MOBILE", "co2"), ("methaneEmission", "FIXED", "ch4")]

/-- **Two prognoses, one total.** If every source of an emission is counted once, the columns of the long term
prognosis add up to the total of the short term prognosis, in every row. -/
theorem C94_agree (name cat em : String) (h : (name, cat, em) ∈ totals) (attrs : List Attribute)
    (honce : ∀ a ∈ attrs, a.info.emission = some em → times (some cat) a.info = 1) (q : Period) :
    ∃ c ∈ stp, c.name = name ∧ c.query = .emission ∧ c.filter.installation = some cat ∧
      falls (wanted c.filter attrs) q =
        ((emissionColumns ltp (some cat) em).map fun c => falls (wanted c.filter attrs) q).sum := by
  have hc : ∃ c ∈ stp, c.name = name ∧ c.query = .emission ∧ c.filter = ⟨some cat, none, none, none, some em⟩ ∧
      some cat ∈ [some "FIXED", some "MOBILE"] ∧ em ∈ emissions := by
    simp only [totals, List.mem_cons, Prod.mk.injEq, List.not_mem_nil, or_false] at h
    rcases h with ⟨rfl, rfl, rfl⟩ | ⟨rfl, rfl, rfl⟩ | ⟨rfl, rfl, rfl⟩ <;> decide +kernel
  obtain ⟨c, h1, h2, h3, h4, h5, h6⟩ := hc
  refine ⟨c, h1, h2, h3, by rw [h4], ?_⟩
  rw [C94_emissions _ h5 _ h6, h4]
  clear h1 h2 h3 h4
  induction attrs with
  | nil => rfl
  | cons a t ih =>
    rw [wanted_cons, ih fun x hx => honce x (by simp [hx]), List.map_cons, List.sum_cons]
    congr 1
    by_cases he : a.info.emission = some em
    · rw [if_pos he, honce a (by simp) he]
      simp [keeps, equalOr, memberOr, he]
    · rw [if_neg he]
      simp [keeps, equalOr, memberOr, he]

/-- Specification: in how many columns of fuel, in one unit, a consumer is counted. -/
def fuelTimes (category : Option String) (unit : EUnit) (m : Meta) : ℕ :=
  let burns := fun fuel => decide (m.fuel = some fuel)
  let is := fun names => decide (m.consumer ∈ names.map some)
  if category = some "FIXED" ∧ unit = .STANDARD_CUBIC_METER then
    (burns "FUEL-GAS" && is ["TURBINE-GENERATOR", "GAS-DRIVEN-COMPRESSOR", "BOILER", "HEATER"]).toNat +
      (is ["FLARE"]).toNat
  else if category = some "FIXED" ∧ unit = .LITRES then
    (burns "DIESEL").toNat + (burns "DIESEL" && is ["BOILER", "HEATER"]).toNat
  else if category = some "MOBILE" ∧ unit = .LITRES then (burns "DIESEL").toNat
  else 0

/-- Specification: the columns of fuel in one unit in the report of a category. -/
def fuelColumns (columns : List Column) (category : Option String) (unit : EUnit) : List Column :=
  columns.filter fun c => decide (c.query = .fuel ∧ c.filter.installation = category ∧ c.unit = unit)

theorem fuel_finite : ∀ cat ∈ [some "FIXED", some "MOBILE"], ∀ u ∈ [EUnit.STANDARD_CUBIC_METER, .LITRES],
    ∀ f ∈ none :: fuels.map some, ∀ c ∈ none :: consumers.map some, ∀ em ∈ none :: emissions.map some,
    ((fuelColumns ltp cat u).filter fun col => keeps col.filter ⟨f, c, none, em⟩).length =
      fuelTimes cat u ⟨f, c, none, em⟩ := by
  decide +kernel

/-- **Fuel, each consumption as often as the table says.** -/
theorem C94_fuel (cat : Option String) (hcat : cat ∈ [some "FIXED", some "MOBILE"]) (u : EUnit)
    (hu : u ∈ [EUnit.STANDARD_CUBIC_METER, .LITRES]) (attrs : List Attribute) (q : Period) :
    ((fuelColumns ltp cat u).map fun c => falls (wanted c.filter attrs) q).sum =
      (attrs.map fun a => (fuelTimes cat u a.info : ℚ) * falls a.points q).sum := by
  rw [columns_sum]
  congr 1
  refine List.map_congr_left fun a _ => ?_
  have h1 : ((fuelColumns ltp cat u).filter fun col => keeps col.filter a.info) =
      (fuelColumns ltp cat u).filter fun col => keeps col.filter (simple a.info) := by
    refine List.filter_congr fun c hc => ?_
    unfold fuelColumns at hc
    rw [List.mem_filter, decide_eq_true_eq] at hc
    rw [keeps_simple (ltp_mentions c hc.1 (Or.inr hc.2.1))]
  have h2 : fuelTimes cat u (simple a.info) = fuelTimes cat u a.info := by
    have hf : ∀ w ∈ fuels, (only fuels a.info.fuel = some w) = (a.info.fuel = some w) :=
      fun w hw => propext (only_eq hw _)
    have hc : ∀ w ∈ consumers, (only consumers a.info.consumer = some w) = (a.info.consumer = some w) :=
      fun w hw => propext (only_eq hw _)
    unfold fuelTimes simple
    simp only [List.map_cons, List.map_nil, List.mem_cons, List.not_mem_nil, or_false,
      hf "DIESEL" (by decide), hf "FUEL-GAS" (by decide), hc "BOILER" (by decide), hc "HEATER" (by decide),
      hc "TURBINE-GENERATOR" (by decide), hc "GAS-DRIVEN-COMPRESSOR" (by decide), hc "FLARE" (by decide)]
  rw [h1, ← h2]
  congr 2
  exact fuel_finite cat hcat u hu _ (only_mem _ _) _ (only_mem _ _) _ (only_mem _ _)

/-! ## The two reports -/

theorem ltp_names : (ltp.map (·.name)).Nodup := by decide +kernel

theorem stp_names : (stp.map (·.name)).Nodup := by decide +kernel

theorem tons : ∃ g h, EUnit.TONS.to .KILO = .ok g ∧ EUnit.KILO.to .TONS = .ok h := ⟨_, _, rfl, rfl⟩

theorem emission_units : ∀ c ∈ ltp ++ stp, c.query = .emission → c.unit = .TONS := by decide +kernel

theorem always_asked : ∀ columns ∈ [ltp, stp], ∃ c ∈ columns, c.filter.installation = none := by decide +kernel

/-- **The report.** For any installation with consecutive periods and complete data, at any frequency, either report is
made, and it is this: the identifiers of the columns of its category, their headings, then one line per reporting period
in order of time, with year and month of its beginning and what each column shows: the amounts from exactly the sources
of the column that fall into the period, with the sign changed for offshore wind and steam turbines, as text. -/
theorem C94_report (columns : List Column) (hcolumns : columns ∈ [ltp, stp]) (year month : DateTime → String)
    (freq : Frequency) (e : Exportable) (d : Data) (hg : Given columns freq e d) (nps : Periods)
    (hn : resamplePeriods e.periods freq true true = .ok nps) (hne : nps ≠ []) :
    ∃ text : Column → Period → String,
      report columns year month freq e d = .ok (
        ("forecastYear" :: "forecastMonth" :: (asked columns e).map (·.name)) ::
        ("#Years" :: "Months" :: (asked columns e).map Column.heading) ::
        nps.map fun q => year q.start :: month q.start :: (asked columns e).map fun c => text c q) ∧
      ∀ c ∈ asked columns e, ∀ attrs, d.of c.query c.unit = .ok attrs → ∀ q ∈ nps, Shows c freq e attrs q (text c q) := by
  have hsub : (columns.map (·.name)).Nodup ∧ ∀ c ∈ columns, c.query = .emission → c.unit = .TONS := by
    simp only [List.mem_cons, List.not_mem_nil, or_false] at hcolumns
    rcases hcolumns with rfl | rfl
    · exact ⟨ltp_names, fun c hc => emission_units c (by simp [hc])⟩
    · exact ⟨stp_names, fun c hc => emission_units c (by simp [hc])⟩
  obtain ⟨c, hc, hi⟩ := always_asked columns hcolumns
  refine report_eq columns hsub.1 (fun c hc hq => ?_) year month freq e d ?_ hg nps hn hne
  · rw [hsub.2 c hc hq]
    exact tons
  · refine List.ne_nil_of_mem (a := c) ?_
    rw [asked, List.mem_filter, decide_eq_true_eq]
    exact ⟨hc, Or.inl hi⟩

theorem headings_finite : ∀ columns ∈ [ltp, stp], ∀ cat ∈ [some "FIXED", some "MOBILE", none],
    ((columns.filter fun c => decide (c.filter.installation = none ∨ c.filter.installation = cat)).map
      Column.heading).Nodup := by
  decide +kernel

theorem ltp_categories : ∀ columns ∈ [ltp, stp], ∀ c ∈ columns,
    c.filter.installation ∈ [some "FIXED", some "MOBILE", none] := by decide +kernel

theorem asked_other (columns : List Column) (hcolumns : columns ∈ [ltp, stp]) (e : Exportable)
    (hcat : e.category ∉ [some "FIXED", some "MOBILE"]) :
    asked columns e = columns.filter fun c => decide (c.filter.installation = none) := by
  refine List.filter_congr fun c hc => ?_
  have := ltp_categories columns hcolumns c hc
  rw [decide_eq_decide]
  unfold Asked
  simp only [List.mem_cons, List.not_mem_nil, or_false, not_or] at hcat this
  constructor
  · rintro (h | h)
    · exact h
    · rcases this with h' | h' | h'
      · exact absurd (h ▸ h') hcat.1
      · exact absurd (h ▸ h') hcat.2
      · exact h'
  · exact Or.inl

/-- **Columns can be told apart**: in the report of any installation, by identifier and also by heading. -/
theorem C94_distinct (columns : List Column) (hcolumns : columns ∈ [ltp, stp]) (e : Exportable) :
    ((asked columns e).map (·.name)).Nodup ∧ ((asked columns e).map Column.heading).Nodup := by
  constructor
  · have : (columns.map (·.name)).Nodup := by
      simp only [List.mem_cons, List.not_mem_nil, or_false] at hcolumns
      rcases hcolumns with rfl | rfl
      · exact ltp_names
      · exact stp_names
    exact this.sublist (List.filter_sublist.map _)
  · by_cases hcat : e.category ∈ [some "FIXED", some "MOBILE"]
    · exact headings_finite columns hcolumns e.category (by
        simp only [List.mem_cons, List.not_mem_nil, or_false] at hcat ⊢
        rcases hcat with h | h <;> simp [h])
    · rw [asked_other columns hcolumns e hcat]
      have := headings_finite columns hcolumns none (by simp)
      simpa using this

/-- **One identifier, one meaning**: a column with the same identifier in both reports is the same column. -/
theorem C94_same (c c' : Column) (hc : c ∈ ltp) (hc' : c' ∈ stp) (h : c.name = c'.name) : c = c' := by
  have : ∀ c ∈ ltp, ∀ c' ∈ stp, c.name = c'.name → c = c' := by decide +kernel
  exact this c hc c' hc' h

/-- Specification: the unit in the heading of a column. -/
def shownUnit (c : Column) : String := match c.query with
  | .fuel => if c.filter.fuel = some "DIESEL" then "L" else "Sm3"
  | .emission => "t"
  | .storage => "Sm3"
  | .production | .power => "GWh"
  | .peak => "MW"

/-- **Headings and signs**: the heading of every column ends with the unit of what it shows, and exactly the columns of
offshore wind and steam turbines, which are consumers with negative consumption, have their sign changed. -/
theorem C94_headings (columns : List Column) (hcolumns : columns ∈ [ltp, stp]) (c : Column) (hc : c ∈ columns) :
    c.heading = c.title ++ "[" ++ shownUnit c ++ "]" ∧
    (c.invert = true ↔ c.filter.consumers = some ["OFFSHORE-WIND"] ∨ c.filter.consumers = some ["STEAM-TURBINE-GENERATOR"]) := by
  have : ∀ columns ∈ [ltp, stp], ∀ c ∈ columns, unitText c.unit = shownUnit c ∧
    (c.invert = true ↔ c.filter.consumers = some ["OFFSHORE-WIND"] ∨ c.filter.consumers = some ["STEAM-TURBINE-GENERATOR"]) := by
    decide +kernel
  obtain ⟨h1, h2⟩ := this columns hcolumns c hc
  exact ⟨by unfold Column.heading; rw [h1], h2⟩

example : ∃ c ∈ ltp, c.invert = true ∧ c.heading = "Total Electricity Consumed From Offshore Wind[GWh]" := by decide +kernel

/-- FINDING: the report of an installation that is neither fixed nor mobile (the category may be left out) has no
emission and no fuel at all. -/
theorem C94_no_category (e : Exportable) (hcat : e.category ∉ [some "FIXED", some "MOBILE"]) :
    (asked ltp e).map (·.name) = ["fromShoreConsumption", "powerSupplyOnshore", "fromShorePeakMaximum"] ∧
    (asked stp e).map (·.name) = ["powerSupplyOnshore"] := by
  rw [asked_other ltp (by simp) e hcat, asked_other stp (by simp) e hcat]
  constructor <;> decide +kernel

/-- FINDING: what diesel of a boiler or a heater emits is counted twice; the two prognoses then disagree. -/
theorem C94_diesel_twice (consumer : String) (h : consumer ∈ ["BOILER", "HEATER"]) (em : String) (hem : em ∈ emissions)
    (pts : List (Period × Fl)) (q : Period) :
    ((emissionColumns ltp (some "FIXED") em).map fun c =>
      falls (wanted c.filter [⟨⟨some "DIESEL", some consumer, none, some em⟩, pts⟩]) q).sum = 2 * falls pts q := by
  rw [C94_emissions _ (by simp) _ hem]
  have : times (some "FIXED") ⟨some "DIESEL", some consumer, none, some em⟩ = 2 := by
    simp only [emissions, List.mem_cons, List.not_mem_nil, or_false] at h hem
    rcases h with rfl | rfl <;> rcases hem with rfl | rfl | rfl | rfl <;> decide +kernel
  simp [this]

/-- FINDING: what fuel gas of any other consumer emits on a fixed installation, and all fuel gas on a mobile one, is in
no column of the long term prognosis. -/
theorem C94_gas_nowhere (cat : Option String) (consumer : Option String) (em : String) (hem : em ∈ emissions)
    (h : cat = some "MOBILE" ∧ consumer ≠ some "COLD-VENTING-FUGITIVE" ∨
      cat = some "FIXED" ∧ consumer ∉ consumers.map some) (pts : List (Period × Fl)) (q : Period) :
    ((emissionColumns ltp cat em).map fun c =>
      falls (wanted c.filter [⟨⟨some "FUEL-GAS", consumer, none, some em⟩, pts⟩]) q).sum = 0 := by
  have hcat : cat ∈ [some "FIXED", some "MOBILE"] := by
    rcases h with ⟨rfl, -⟩ | ⟨rfl, -⟩ <;> simp
  rw [C94_emissions _ hcat _ hem]
  have : times cat ⟨some "FUEL-GAS", consumer, none, some em⟩ = 0 := by
    rcases h with ⟨rfl, h⟩ | ⟨rfl, h⟩
    · simp [times, h]
    · simp only [consumers, List.map_cons, List.map_nil, List.mem_cons, List.not_mem_nil, or_false, not_or] at h
      simp [times, h]
  simp [this]

/-- **Nothing else is mixed in**: an emission of another name is in no emission column of either report. Names are in
lower case by then (dto/emission.py:22-25, yaml_venting_emitter.py:42-67). -/
theorem C94_others (columns : List Column) (hcolumns : columns ∈ [ltp, stp]) (c : Column) (hc : c ∈ columns)
    (hq : c.query = .emission) (m : Meta) (hm : ∀ em ∈ emissions, m.emission ≠ some em) : keeps c.filter m = false := by
  have : ∀ columns ∈ [ltp, stp], ∀ c ∈ columns, c.query = .emission → ∃ em ∈ emissions, c.filter.emission = some em := by
    decide +kernel
  obtain ⟨em, hem, he⟩ := this columns hcolumns c hc hq
  simp [keeps, equalOr, he, hm em hem]

example : ∀ em ∈ emissions, (some "sox" : Option String) ≠ some em := by decide +kernel

/-! ## Examples -/

/-- A fixed installation over two periods, with a turbine, a boiler on diesel and wind power. -/
def sampleInstallation : Exportable := ⟨"A", some "FIXED", [⟨0, 864000000000⟩, ⟨864000000000, 1728000000000⟩]⟩

def sampleData : Data where
  fuel := [⟨⟨some "FUEL-GAS", some "TURBINE-GENERATOR", none, none⟩, [(⟨0, 864000000000⟩, some 100)]⟩,
    ⟨⟨some "DIESEL", some "BOILER", none, none⟩, [(⟨864000000000, 1728000000000⟩, some (7 / 2))]⟩]
  emissions _ := .ok [⟨⟨some "FUEL-GAS", some "TURBINE-GENERATOR", none, some "co2"⟩, [(⟨0, 864000000000⟩, some 2)]⟩,
    ⟨⟨some "DIESEL", some "BOILER", none, some "co2"⟩, [(⟨864000000000, 1728000000000⟩, some (1 / 3))]⟩]
  storage _ := .ok []
  production _ := .ok []
  peak _ := .ok []
  power _ := .ok [⟨⟨none, some "OFFSHORE-WIND", none, none⟩, [(⟨0, 864000000000⟩, some (-5))]⟩]

/-- Names, headings and cells of the columns that are not all zero. -/
def nonzero (lines : List (List String)) : List (List String) :=
  (List.range 60).filterMap fun i =>
    let column := lines.filterMap (·[i]?)
    if column.length = 0 ∨ column.drop 2 = ["0", "0"] then none else some column

example : (report ltp (fun t => toString t) (fun _ => "01") .none sampleInstallation sampleData).map nonzero = .ok [
    ["forecastYear", "#Years", "0", "864000000000"], ["forecastMonth", "Months", "01", "01"],
    ["turbineFuelGasConsumption", "Fuel Consumption[Sm3]", "100", "0"],
    ["engineDieselConsumption", "Diesel Consumption[L]", "0", "3.5"],
    ["boilerDieselConsumption", "Boiler Diesel Consumption[L]", "0", "3.5"],
    ["turbineFuelGasCo2Mass", "CO2 From Fuel Gas[t]", "2", "0"],
    ["engineDieselCo2Mass", "CO2 From Diesel[t]", "0", "0.333333"],
    ["boilerDieselCo2Mass", "CO2 From Boiler Diesel[t]", "0", "0.333333"],
    ["offshoreWindConsumption", "Total Electricity Consumed From Offshore Wind[GWh]", "5", "0"]] := by
  decide +kernel

theorem sample_given : ∀ c ∈ stp, ∃ attrs, sampleData.of c.query c.unit = .ok attrs ∧
    (∀ pv ∈ wanted c.filter attrs, pv.2 ≠ none ∧ pv.1 ∈ sampleInstallation.periods) ∧ c.query ≠ .peak := by
  intro c hc
  simp only [stp, List.mem_cons, List.not_mem_nil, or_false] at hc
  rcases hc with rfl | rfl | rfl | rfl | rfl | rfl | rfl <;> exact ⟨_, rfl, by decide +kernel, by decide +kernel⟩

/-- The hypotheses of `C94_report` can be met. -/
example : Given stp .none sampleInstallation sampleData := by
  refine ⟨by decide +kernel, by decide +kernel, fun c hc _ => ?_⟩
  obtain ⟨attrs, h1, h2, h3⟩ := sample_given c hc
  exact ⟨attrs, h1, fun pv h => (h2 pv h).1, fun pv h => (h2 pv h).2, fun h => absurd h h3⟩

/-- Those of `C94_agree` too: gas in turbines, diesel in engines, flaring. -/
example : times (some "FIXED") ⟨some "FUEL-GAS", some "TURBINE-GENERATOR", none, some "co2"⟩ = 1 ∧
    times (some "FIXED") ⟨some "DIESEL", some "TURBINE-GENERATOR", none, some "co2"⟩ = 1 ∧
    times (some "FIXED") ⟨some "FUEL-GAS", some "FLARE", none, some "ch4"⟩ = 1 ∧
    times (some "FIXED") ⟨none, some "STORAGE", none, some "co2"⟩ = 0 := by
  decide +kernel

end Verif.C94
