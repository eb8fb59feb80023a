import Verif.Model.Exporter
import Verif.Lemmas.Dict
import Verif.Props.C06
import Verif.Props.C09
import Verif.Props.C10
import Verif.Props.C13
import Verif.Props.C14
import Verif.Props.C19
import Verif.Props.C24

/-!
# C47: exported totals are sums over the installation's consumers

A column of the exported table holds, for every period, the sum of the volumes of exactly the consumers that are in the
wanted categories in that period; at another frequency it holds the volume that falls inside each reporting period.
Groups of categories that split the consumers split the total.
-/

namespace Verif.C47
open Verif.Time Verif.Rates Verif.Units Verif.Exporter Verif.DictLemmas Verif.GraphLemmas Verif.C05 Verif.C13

/-! ## The query level -/

/-- Specification: the sum of the values given for a period. -/
def total (pts : List (Period × Fl)) (p : Period) : ℚ :=
  ((pts.filter fun pv => decide (pv.1 = p)).map fun pv => pv.2.getD 0).sum

/-- Specification: all datapoints of the attributes in the wanted categories. -/
def wanted (f : Filter) (attrs : List Attribute) : List (Period × Fl) :=
  (attrs.filter fun a => keeps f a.info).flatMap (·.points)

/-- No missing number. -/
def Finite (pts : List (Period × Fl)) : Prop := ∀ pv ∈ pts, pv.2 ≠ none

theorem aggregate_eq (f : Filter) (attrs : List Attribute) :
    aggregate f attrs = (wanted f attrs).foldl addPoint [] := by
  have key : ∀ (attrs : List Attribute) (d : List (Period × Fl)),
      attrs.foldl (addAttribute f) d = (wanted f attrs).foldl addPoint d := by
    intro attrs
    induction attrs with
    | nil => intro d; rfl
    | cons a t ih =>
      intro d
      rw [List.foldl_cons, ih]
      by_cases hk : keeps f a.info
      · simp [addAttribute, wanted, hk, List.foldl_append]
      · simp [addAttribute, wanted, hk]
  exact key attrs []

theorem total_cons (pv : Period × Fl) (t : List (Period × Fl)) (p : Period) :
    total (pv :: t) p = (if pv.1 = p then pv.2.getD 0 else 0) + total t p := by
  unfold total
  by_cases h : pv.1 = p <;> simp [h]

theorem total_append (a b : List (Period × Fl)) (p : Period) : total (a ++ b) p = total a p + total b p := by
  unfold total
  simp

theorem fold_keys (pts : List (Period × Fl)) (d : List (Period × Fl)) :
    (pts.foldl addPoint d).map (·.1) = addKeys (d.map (·.1)) (pts.map (·.1)) := by
  induction pts generalizing d with
  | nil => rfl
  | cons pv t ih =>
    rw [List.foldl_cons, ih]
    unfold addPoint
    rw [keys_dictSet]
    rfl

theorem fold_total (pts : List (Period × Fl)) (hf : Finite pts) (d : List (Period × Fl))
    (hd : ∀ p v, d.lookup p = some v → v ≠ none) (p : Period) :
    ((pts.foldl addPoint d).lookup p).getD (some 0) = some (((d.lookup p).getD (some 0)).getD 0 + total pts p) := by
  induction pts generalizing d with
  | nil =>
    simp only [List.foldl_nil, total, List.filter_nil, List.map_nil, List.sum_nil, add_zero]
    rcases h : d.lookup p with _ | v
    · simp
    · rcases v with _ | x
      · exact absurd rfl (hd p none h)
      · simp
  | cons pv t ih =>
    obtain ⟨q, v⟩ := pv
    rw [List.foldl_cons, ih (fun x hx => hf x (List.mem_cons_of_mem _ hx))]
    · obtain ⟨y, rfl⟩ : ∃ y, v = some y := Option.ne_none_iff_exists'.1 (hf (q, v) (by simp))
      obtain ⟨x, hx⟩ : ∃ x, (d.lookup q).getD (some 0) = some x := by
        rcases h : d.lookup q with _ | w
        · exact ⟨0, rfl⟩
        · obtain ⟨x, rfl⟩ := Option.ne_none_iff_exists'.1 (hd q w h)
          exact ⟨x, rfl⟩
      simp only [addPoint, lookup_dictSet, hx, total_cons]
      by_cases h : p = q
      · subst h
        simp only [if_true, hx, Fl.add, Option.bind_some, Option.map_some, Option.getD_some]
        rw [add_assoc]
      · have h' : ¬ q = p := fun e => h e.symm
        simp [h, h']
    · intro p' w hw
      simp only [addPoint, lookup_dictSet] at hw
      by_cases h : p' = q
      · simp only [h, if_true, Option.some.injEq] at hw
        subst hw
        obtain ⟨y, rfl⟩ : ∃ y, v = some y := Option.ne_none_iff_exists'.1 (hf (q, v) (by simp))
        rcases h' : d.lookup q with _ | u
        · simp [Fl.add]
        · obtain ⟨x, rfl⟩ := Option.ne_none_iff_exists'.1 (hd q u h')
          simp [Fl.add]
      · simp only [h, if_false] at hw
        exact hd p' w hw

theorem insertItem_perm (x : Period × Fl) (l : List (Period × Fl)) : (insertItem x l).Perm (x :: l) := by
  induction l with
  | nil => exact .refl _
  | cons y ys ih =>
    unfold insertItem
    split
    · exact .refl _
    · exact (ih.cons y).trans (.swap x y ys)

theorem sortItems_perm (d : List (Period × Fl)) : (sortItems d).Perm d := by
  induction d with
  | nil => exact .refl _
  | cons x t ih => exact (insertItem_perm x _).trans (ih.cons x)

theorem lookup_perm {d e : List (Period × Fl)} (h : d.Perm e) (hn : (e.map (·.1)).Nodup) (p : Period) :
    d.lookup p = e.lookup p := by
  have hn' : (d.map (·.1)).Nodup := (h.map _).nodup_iff.2 hn
  have key : ∀ (l : List (Period × Fl)), (l.map (·.1)).Nodup → ∀ v, (p, v) ∈ l → l.lookup p = some v := by
    intro l
    induction l with
    | nil => simp
    | cons a t ih =>
      intro hl v hv
      obtain ⟨k, w⟩ := a
      rw [List.map_cons, List.nodup_cons] at hl
      rcases List.mem_cons.1 hv with hv | hv'
      · cases hv
        simp
      · have hne : p ≠ k := by
          rintro rfl
          exact hl.1 (List.mem_map.2 ⟨_, hv', rfl⟩)
        rw [List.lookup_cons, beq_eq_false_iff_ne.2 hne]
        exact ih hl.2 v hv'
  rcases hd : d.lookup p with _ | v
  · rcases he : e.lookup p with _ | w
    · rfl
    · have := key d hn' w (h.mem_iff.2 (mem_of_lookup he))
      rw [hd] at this
      exact absurd this (by simp)
  · exact (key e hn v (h.mem_iff.1 (mem_of_lookup hd))).symm

theorem withZeros_eq {ps : Periods} (hps : ps.Nodup) {d : List (Period × Fl)} (hn : (d.map (·.1)).Nodup)
    (hs : ∀ pv ∈ d, pv.1 ∈ ps) :
    withZeros ps d = ps.map fun p => (p, (d.lookup p).getD (some 0)) := by
  rw [← setAll_over hps (some 0) hn hs]
  unfold withZeros setAll
  rw [List.foldl_map]

theorem toDict_nodup {α : Type} {l : List (Period × α)} (h : (l.map (·.1)).Nodup) : toDict l = l := by
  have key : ∀ (l acc : List (Period × α)), (l.map (·.1)).Nodup → (∀ x ∈ l, x.1 ∉ acc.map (·.1)) →
      l.foldl (fun acc pv => dictSet pv.1 pv.2 acc) acc = acc ++ l := by
    intro l
    induction l with
    | nil => simp
    | cons a t ih =>
      intro acc hn hd
      rw [List.foldl_cons, C24.dictSet_fresh _ _ _ (hd a (by simp))]
      rw [List.map_cons, List.nodup_cons] at hn
      rw [ih _ hn.2]
      · simp
      · intro x hx hm
        rw [List.map_append, List.mem_append] at hm
        rcases hm with hm | hm
        · exact hd x (by simp [hx]) hm
        · simp only [List.map_cons, List.map_nil, List.mem_singleton] at hm
          exact hn.1 (List.mem_map.2 ⟨x, hx, hm⟩)
  exact (key l [] h (by simp)).trans (by simp)

theorem viaKilo_id (r : TS Fl) (hc : ∃ f g, r.unit.to .KILO = .ok f ∧ EUnit.KILO.to r.unit = .ok g) :
    (r.toUnit .KILO).bind (·.toUnit r.unit) = .ok r := by
  obtain ⟨f, g, hf, hg⟩ := hc
  obtain ⟨ps, vs, u⟩ := r
  simp only at hf hg ⊢
  by_cases hu : EUnit.KILO = u
  · subst hu
    simp [TS.toUnit, Except.bind]
  · have hu' : ¬ u = EUnit.KILO := fun e => hu e.symm
    simp only [TS.toUnit, hu, hu', if_false, hf, hg, Except.bind, List.map_map, Except.ok.injEq, TS.mk.injEq, true_and,
      and_true]
    rw [List.map_congr_left (g := id)]
    · simp
    · intro v _
      cases v with
      | none => rfl
      | some x => simp [C14.C14_round_trip u .KILO f g hf hg x]

theorem pairs_nodup {l : List Int} (h : l.Pairwise (· < ·)) : (Periods.pairs l).Nodup := by
  have hs : ∀ (l : List Int), (Periods.pairs l).map (·.start) = l.dropLast := by
    intro l
    induction l with
    | nil => rfl
    | cons a t ih =>
      cases t with
      | nil => rfl
      | cons b t => simp only [Periods.pairs, List.map_cons, ih, List.dropLast_cons_cons]
  have : ((Periods.pairs l).map (·.start)).Nodup := by
    rw [hs]
    exact (h.imp (fun h => by omega : ∀ {a b : Int}, a < b → a ≠ b)).sublist (List.dropLast_sublist l)
  exact List.Nodup.of_map _ this

theorem resamplePeriods_nodup {ps nps : Periods} {freq : Frequency} {a b : Bool} (hps : ps.Nodup)
    (h : resamplePeriods ps freq a b = .ok nps) : nps.Nodup := by
  unfold resamplePeriods at h
  split at h
  · cases h
    exact hps
  · split at h
    · cases h
      rw [C19.create_pairs]
      exact pairs_nodup (by unfold createStartAndEndDates; exact pairwise_sortedSet _)
    · cases h

theorem wf_nodup {ps : Periods} (h : WF ps) : ps.Nodup := by
  induction ps with
  | nil => exact .nil
  | cons p t ih =>
    have hlt : ∀ (t : Periods) (p : Period), WF (p :: t) → ∀ q ∈ t, p.start < q.start := by
      intro t
      induction t with
      | nil => simp
      | cons a t ih =>
        intro p hw q hq
        obtain ⟨h1, h2, h3⟩ := hw
        rcases List.mem_cons.1 hq with rfl | hq
        · omega
        · have := ih a h3 q hq
          have := wf_nonempty h3 a (by simp)
          omega
    have htail : WF t := by
      cases t with
      | nil => trivial
      | cons a t => exact h.2.2
    rw [List.nodup_cons]
    refine ⟨fun hm => ?_, ih htail⟩
    have := hlt t p h p hm
    omega

/-- Everything a query needs to know about its input. -/
structure Ready (f : Filter) (viaKilo : Bool) (unit : EUnit) (e : Exportable) (attrs : List Attribute) : Prop where
  category : ∀ c, f.installation = some c → e.category = some c
  finite : Finite (wanted f attrs)
  periods : ∀ pv ∈ wanted f attrs, pv.1 ∈ e.periods
  unit : viaKilo = true → ∃ g h, unit.to .KILO = .ok g ∧ EUnit.KILO.to unit = .ok h

theorem right_installation {f : Filter} {e : Exportable} (h : ∀ c, f.installation = some c → e.category = some c) :
    wrongInstallation f e = false := by
  unfold wrongInstallation equalOr
  rcases hi : f.installation with _ | c
  · rfl
  · simp [h c hi]

theorem table_eq {f : Filter} {e : Exportable} {attrs : List Attribute} (hps : e.periods.Nodup)
    (hf : Finite (wanted f attrs)) (hp : ∀ pv ∈ wanted f attrs, pv.1 ∈ e.periods) :
    withZeros e.periods (sortItems (aggregate f attrs)) =
      e.periods.map fun p => (p, some (total (wanted f attrs) p)) := by
  have hk : (aggregate f attrs).map (·.1) = addKeys [] ((wanted f attrs).map (·.1)) := by
    rw [aggregate_eq, fold_keys]
    rfl
  have hn : ((aggregate f attrs).map (·.1)).Nodup := by
    rw [hk]
    exact addKeys_nodup _ _ .nil
  have hperm := sortItems_perm (aggregate f attrs)
  have hn' : ((sortItems (aggregate f attrs)).map (·.1)).Nodup := (hperm.map _).nodup_iff.2 hn
  rw [withZeros_eq hps hn']
  · refine List.map_congr_left fun p _ => ?_
    rw [lookup_perm hperm hn, aggregate_eq, fold_total _ hf [] (by simp)]
    simp
  · intro pv hpv
    have : pv.1 ∈ (aggregate f attrs).map (·.1) := List.mem_map.2 ⟨pv, hperm.mem_iff.1 hpv, rfl⟩
    rw [hk, mem_addKeys] at this
    rcases this with h | h
    · simp at h
    · obtain ⟨x, hx, he⟩ := List.mem_map.1 h
      rw [← he]
      exact hp x hx

theorem query_resampled {f : Filter} {viaKilo : Bool} {unit : EUnit} {e : Exportable} {attrs : List Attribute}
    (hps : e.periods.Nodup) (hr : Ready f viaKilo unit e attrs) {freq : Frequency} {nps : Periods} (hnd : nps.Nodup)
    (g : Period → ℚ)
    (hv : volResample ⟨e.periods, e.periods.map fun p => some (total (wanted f attrs) p), unit⟩ freq true true =
      .ok ⟨nps, nps.map fun q => some (g q), unit⟩) :
    queryVolumes f viaKilo unit freq e attrs = .ok (some (nps.map fun q => (q, some (g q)))) := by
  unfold queryVolumes
  rw [right_installation hr.category]
  simp only [Bool.false_eq_true, if_false, table_eq hps hr.finite hr.periods, List.map_map, Function.comp_def,
    List.map_id', Bind.bind, Except.bind]
  rw [C13.make_ok (by simp)]
  simp only [hv]
  have hz : ∀ (l : List Period), l.zip ((l.map fun q => some (g q)).map nanToNum) = l.map fun q => (q, some (g q)) := by
    intro l
    induction l with
    | nil => rfl
    | cons a t ih =>
      simp only [List.map_cons, List.zip_cons_cons, ih]
      rfl
  have hd : toDict (nps.map fun q => (q, (some (g q) : Fl))) = nps.map fun q => (q, some (g q)) :=
    toDict_nodup (by simpa [Function.comp_def] using hnd)
  split
  · rename_i h
    have hid := viaKilo_id ⟨nps, nps.map fun q => some (g q), unit⟩ (hr.unit h)
    rcases hx : TS.toUnit (⟨nps, nps.map fun q => some (g q), unit⟩ : TS Fl) .KILO with err | v
    · rw [hx] at hid
      simp [Except.bind] at hid
    · rw [hx] at hid
      simp only [Except.bind] at hid
      simp only [hid, hz, hd]
  · simp only [hz, hd]

/-- At the frequency of the calculation a column has one entry for each period of the installation: the sum of the
datapoints of exactly the attributes in the wanted categories. -/
theorem C47_column (f : Filter) (viaKilo : Bool) (unit : EUnit) (e : Exportable) (attrs : List Attribute)
    (hps : e.periods.Nodup) (hr : Ready f viaKilo unit e attrs) :
    queryVolumes f viaKilo unit .none e attrs =
      .ok (some (e.periods.map fun p => (p, some (total (wanted f attrs) p)))) := by
  refine query_resampled hps hr hps _ ?_
  obtain ⟨r, h1, h2, h3, h4⟩ := C09.C09_none
    ⟨e.periods, e.periods.map fun p => some (total (wanted f attrs) p), unit⟩ true true (by simp)
  rw [h1]
  obtain ⟨a, b, c⟩ := r
  simp only at h2 h3 h4
  subst h2 h3 h4
  simp

/-- At any other frequency a column has one entry for each reporting period: the part of the summed volumes that falls
inside it. -/
theorem C47_column_resampled (f : Filter) (viaKilo : Bool) (unit : EUnit) (freq : Frequency) (hfreq : freq ≠ .none)
    (e : Exportable) (attrs : List Attribute) (hw : WF e.periods) (hpos : ∀ p ∈ e.periods, 0 ≤ p.start)
    (hr : Ready f viaKilo unit e attrs) (nps : Periods) (hn : resamplePeriods e.periods freq true true = .ok nps)
    (hne : nps ≠ []) :
    queryVolumes f viaKilo unit freq e attrs = .ok (some (nps.map fun q =>
      (q, some (C09.volumeInside e.periods (e.periods.map fun p => some (total (wanted f attrs) p)) q)))) := by
  refine query_resampled (wf_nodup hw) hr (resamplePeriods_nodup (wf_nodup hw) hn) _ ?_
  exact C09.C09_volume_inside ⟨e.periods, _, unit⟩ freq true true hfreq (by simp) hw hpos nps hn hne

/-- Another installation category gives no column; the right one, or none asked for, always goes on to the values. -/
theorem C47_installation (f : Filter) (viaKilo : Bool) (unit : EUnit) (freq : Frequency) (e : Exportable)
    (attrs : List Attribute) :
    queryVolumes f viaKilo unit freq e attrs = .ok none ↔ ∃ c, f.installation = some c ∧ e.category ≠ some c := by
  have hx : wrongInstallation f e = true ↔ ∃ c, f.installation = some c ∧ e.category ≠ some c := by
    unfold wrongInstallation equalOr
    rcases hi : f.installation with _ | c <;> simp
  rw [← hx]
  unfold queryVolumes
  constructor
  · intro h
    by_contra hc
    rw [if_neg hc] at h
    simp only [Bind.bind, Except.bind] at h
    repeat' split at h
    all_goals simp at h
  · intro h
    rw [if_pos h]

/-! ## The consumer level -/

/-- Specification: the volume of one period of a rate. -/
def volOf (rt : RateType) (x : Period × Fl × Fl) : ℚ :=
  C10.calendarRate rt (x.2.1.getD 0) (x.2.2.getD 0) * C10.days x.1

/-- A rate without missing numbers over consecutive periods, with a unit that has a volume. -/
structure GoodRate (r : RateTS) (u : EUnit) : Prop where
  wf : WF r.periods
  one : C07.OnePerPeriod r
  nonempty : r.periods ≠ []
  finite : ∀ x ∈ triples r, x.2.1 ≠ none ∧ x.2.2 ≠ none
  unit : r.unit.rateToVolume = .ok u

/-- What the conversion to the wanted unit does with a number. -/
def Converts (unit : Option EUnit) (u : EUnit) (conv : ℚ → ℚ) : Prop :=
  match unit with
  | none => conv = id
  | some w => (w = u ∧ conv = id) ∨ (w ≠ u ∧ EUnit.to u w = .ok conv)

/-- A part begins and ends where periods of the rate do, unless outside the rate. -/
def Aligned (r : RateTS) (q : Period) : Prop :=
  q.start < q.stop ∧ ∀ p ∈ r.periods, ∀ t : DateTime, (t = q.start ∨ t = q.stop) → ¬ (p.start < t ∧ t < p.stop)

theorem triples_periods {r : RateTS} (h : C07.OnePerPeriod r) : (triples r).map (·.1) = r.periods := by
  unfold triples
  rw [List.map_fst_zip]
  have h1 := h.1
  have h2 := h.2
  simp only [List.length_zip]
  omega

theorem volume_pairs {r : RateTS} (hone : C07.OnePerPeriod r) {u : EUnit} (hu : r.unit.rateToVolume = .ok u)
    (hf : ∀ x ∈ triples r, x.2.1 ≠ none ∧ x.2.2 ≠ none) :
    ∃ v, r.toVolumes = .ok v ∧ v.unit = u ∧ v.periods = r.periods ∧ v.values.length = r.periods.length ∧
      v.values = (triples r).map fun x => some (volOf r.rateType x) := by
  obtain ⟨v, h1, h2, h3, h4, h5⟩ := C10.C10_volume_is_rate_times_days r hone u hu
  have hl1 := hone.1
  have hl2 := hone.2
  refine ⟨v, h1, h3, h2, by omega, ?_⟩
  refine List.ext_getElem (by simp [triples]; omega) fun i hi hi' => ?_
  have hip : i < r.periods.length := by omega
  have hiv : i < r.values.length := by omega
  have hir : i < r.regularity.length := by omega
  have hx : (r.periods[i], r.values[i], r.regularity[i]) ∈ triples r := by
    refine List.mem_iff_getElem.2 ⟨i, by simp [triples]; omega, ?_⟩
    simp [triples]
  obtain ⟨ha, hb⟩ := hf _ hx
  obtain ⟨x, hx⟩ := Option.ne_none_iff_exists'.1 ha
  obtain ⟨y, hy⟩ := Option.ne_none_iff_exists'.1 hb
  simp only at hx hy
  have h := h5 i r.periods[i] x y (List.getElem?_eq_getElem hip)
    (by rw [List.getElem?_eq_getElem hiv, hx]) (by rw [List.getElem?_eq_getElem hir, hy])
  rw [List.getElem?_eq_getElem hi] at h
  simp only [Option.some.injEq] at h
  rw [h]
  simp [triples, volOf, hx, hy]

theorem wf_getLast {ps : Periods} (hw : WF ps) {l : Period} (hl : ps.getLast? = some l) : ∀ p ∈ ps, p.stop ≤ l.stop := by
  induction ps with
  | nil => simp
  | cons a t ih =>
    cases t with
    | nil =>
      simp only [List.getLast?_singleton, Option.some.injEq] at hl
      subst hl
      simp
    | cons b t =>
      obtain ⟨h1, h2, h3⟩ := hw
      rw [List.getLast?_cons_cons] at hl
      intro p hp
      rcases List.mem_cons.1 hp with rfl | hp
      · have := ih h3 hl b (by simp)
        have := wf_nonempty h3 b (by simp)
        omega
      · exact ih h3 hl p hp

theorem wf_head {ps : Periods} (hw : WF ps) {f : Period} (hf : ps.head? = some f) : ∀ p ∈ ps, f.start ≤ p.start := by
  induction ps generalizing f with
  | nil => simp
  | cons a t ih =>
    simp only [List.head?_cons, Option.some.injEq] at hf
    subst hf
    cases t with
    | nil => simp
    | cons b t =>
      obtain ⟨h1, h2, h3⟩ := hw
      intro p hp
      rcases List.mem_cons.1 hp with rfl | hp
      · omega
      · have := ih h3 rfl p hp
        omega

/-- A date within consecutive periods is inside one of them or starts one. -/
theorem wf_cover {ps : Periods} (hw : WF ps) {f l : Period} (hf : ps.head? = some f) (hl : ps.getLast? = some l)
    (t : DateTime) (h1 : f.start ≤ t) (h2 : t < l.stop) : ∃ p ∈ ps, p.start ≤ t ∧ t < p.stop := by
  induction ps generalizing f with
  | nil => simp at hf
  | cons a rest ih =>
    simp only [List.head?_cons, Option.some.injEq] at hf
    subst hf
    by_cases ht : t < a.stop
    · exact ⟨a, by simp, h1, ht⟩
    · cases rest with
      | nil =>
        simp only [List.getLast?_singleton, Option.some.injEq] at hl
        subst hl
        exact absurd h2 ht
      | cons b rest =>
        obtain ⟨w1, w2, w3⟩ := hw
        rw [List.getLast?_cons_cons] at hl
        obtain ⟨p, hp, hh⟩ := ih w3 rfl hl (by omega)
        exact ⟨p, List.mem_cons_of_mem _ hp, hh⟩

theorem aligned_boundary {r : RateTS} (hw : WF r.periods) {f l : Period} (hf : r.periods.head? = some f)
    (hl : r.periods.getLast? = some l) {t : DateTime} (ht : ∀ p ∈ r.periods, ¬ (p.start < t ∧ t < p.stop))
    (h1 : f.start ≤ t) (h2 : t ≤ l.stop) : t ∈ r.periods.map (·.start) ++ [l.stop] := by
  rw [List.mem_append]
  by_cases h : t < l.stop
  · obtain ⟨p, hp, h3, h4⟩ := wf_cover hw hf hl t h1 h
    left
    have := ht p hp
    exact List.mem_map.2 ⟨p, hp, by omega⟩
  · right
    simp
    omega

theorem for_part {r : RateTS} {u : EUnit} (hr : GoodRate r u) {q : Period} (hq : Aligned r q) :
    ∃ s, r.forPeriod q = .ok s ∧ C07.OnePerPeriod s ∧ s.unit = r.unit ∧ s.rateType = r.rateType ∧
      triples s = (triples r).filter fun x => decide (Inside q x.1) := by
  obtain ⟨hq0, hq1⟩ := hq
  have hw := hr.wf
  have hf := List.head?_eq_some_head hr.nonempty
  have hl := List.getLast?_eq_some_getLast hr.nonempty
  obtain ⟨f, ef⟩ : ∃ f, f = r.periods.head hr.nonempty := ⟨_, rfl⟩
  obtain ⟨l, el⟩ : ∃ l, l = r.periods.getLast hr.nonempty := ⟨_, rfl⟩
  rw [← ef] at hf
  rw [← el] at hl
  have hfm : f ∈ r.periods := by rw [ef]; exact List.head_mem _
  have hlm : l ∈ r.periods := by rw [el]; exact List.getLast_mem _
  have hfl : f.start < l.stop := by
    have := wf_nonempty hw f hfm
    have := wf_getLast hw hl f hfm
    omega
  by_cases hout : q.stop ≤ f.start ∨ l.stop ≤ q.start
  · obtain ⟨s, h1, h2, h3, h4, h5, h6⟩ := C13_rate_for_period_outside r f l q hf hl hout hfl hq0
    refine ⟨s, h1, ⟨by simp [h2, h3], by simp [h2, h4]⟩, h5, h6, ?_⟩
    rw [List.filter_eq_nil_iff.2]
    · simp [triples, h2]
    · intro x hx
      have hxp : x.1 ∈ r.periods := by
        rw [← triples_periods hr.one]
        exact List.mem_map_of_mem hx
      have a1 := wf_head hw hf _ hxp
      have a2 := wf_getLast hw hl _ hxp
      have a3 := wf_nonempty hw _ hxp
      intro hi
      rw [decide_eq_true_eq] at hi
      obtain ⟨i1, i2⟩ := hi
      omega
  · have hin : q.start < l.stop ∧ f.start < q.stop := by omega
    obtain ⟨q', eq'⟩ : ∃ q' : Period, q' = ⟨max q.start f.start, min q.stop l.stop⟩ := ⟨_, rfl⟩
    have hs' : q'.start = max q.start f.start := by rw [eq']
    have he' : q'.stop = min q.stop l.stop := by rw [eq']
    have b1 : ∀ p ∈ r.periods, ¬ (p.start < q'.start ∧ q'.start < p.stop) := by
      intro p hp
      have := hq1 p hp q.start (.inl rfl)
      have := wf_head hw hf p hp
      omega
    have b2 : ∀ p ∈ r.periods, ¬ (p.start < q'.stop ∧ q'.stop < p.stop) := by
      intro p hp
      have := hq1 p hp q.stop (.inr rfl)
      have := wf_getLast hw hl p hp
      omega
    obtain ⟨s, h1, h2, h3, h4, h5⟩ := C13_rate_for_period r hw hr.one l q' hl
      (aligned_boundary hw hf hl b1 (by omega) (by omega)) (aligned_boundary hw hf hl b2 (by omega) (by omega))
      (by omega)
    refine ⟨s, ?_, h2, h3, h4, ?_⟩
    · rw [← h1]
      unfold RateTS.forPeriod
      have i1 : Period.intersects ⟨f.start, l.stop⟩ q = true := by
        unfold Period.intersects Period.containsDate
        simp only [Bool.or_eq_true, Bool.and_eq_true, decide_eq_true_eq]
        omega
      have i2 : Period.intersects ⟨f.start, l.stop⟩ q' = true := by
        unfold Period.intersects Period.containsDate
        simp only [Bool.or_eq_true, Bool.and_eq_true, decide_eq_true_eq]
        omega
      have i3 : Period.getPeriodIndices q r.periods = Period.getPeriodIndices q' r.periods := by
        unfold Period.getPeriodIndices
        simp only [hf, hl, hs', he', show max (max q.start f.start) f.start = max q.start f.start by omega,
          show min (min q.stop l.stop) l.stop = min q.stop l.stop by omega]
      simp only [period_eq hf hl, Bind.bind, Except.bind, i1, i2, i3]
    · rw [h5]
      refine List.filter_congr fun x hx => ?_
      have hxp : x.1 ∈ r.periods := by
        rw [← triples_periods hr.one]
        exact List.mem_map_of_mem hx
      have a1 := wf_head hw hf _ hxp
      have a2 := wf_getLast hw hl _ hxp
      rw [decide_eq_decide]
      unfold Inside
      omega

theorem zip_maps {α β γ : Type} (l : List α) (g : α → β) (h : α → γ) :
    (l.map g).zip (l.map h) = l.map fun x => (g x, h x) := by
  induction l with
  | nil => rfl
  | cons a t ih => simp [ih]

/-- One attribute: the volumes, in the wanted unit, of exactly the periods of the rate inside the part. -/
theorem C47_attribute (r : RateTS) (u : EUnit) (hr : GoodRate r u) (unit : Option EUnit) (conv : ℚ → ℚ)
    (hc : Converts unit u conv) (q : Period) (m : Meta) (hq : Aligned r q) :
    makeAttribute r unit (q, m) = .ok ⟨m, ((triples r).filter fun x => decide (Inside q x.1)).map
      fun x => (x.1, some (conv (volOf r.rateType x)))⟩ := by
  obtain ⟨s, h1, h2, h3, h4, h5⟩ := for_part hr hq
  obtain ⟨v, g1, g2, g3, g4, g5⟩ := volume_pairs h2 (u := u) (by rw [h3]; exact hr.unit) (by
    intro x hx
    rw [h5] at hx
    exact hr.finite x (List.mem_filter.1 hx).1)
  have hper := triples_periods h2
  have hz : ∀ (h : ℚ → ℚ), v.periods.zip (v.values.map fun o => o.map h) =
      (triples s).map fun x => (x.1, some (h (volOf r.rateType x))) := by
    intro h
    rw [g3, g5, ← hper, List.map_map, zip_maps, h4]
    rfl
  unfold makeAttribute
  simp only [h1, g1, Bind.bind, Except.bind]
  rw [← h5]
  cases unit with
  | none =>
    have hc' : conv = id := hc
    subst hc'
    have := hz id
    simp only [Option.map_id, id_eq, List.map_id'] at this ⊢
    rw [this]
  | some w =>
    rcases hc with ⟨rfl, rfl⟩ | ⟨hne, hto⟩
    · have := hz id
      simp only [Option.map_id, id_eq, List.map_id'] at this ⊢
      simp only [TS.toUnit, g2, if_true, this]
    · simp only [TS.toUnit, g2, hne, if_false, hto, hz conv]

/-! ## All consumers of an installation -/

/-- Specification: what is in force at an instant. -/
def at? {α : Type} (l : List (Period × α)) (t : DateTime) : Option α :=
  (l.find? fun x => decide (x.1.start ≤ t) && decide (t < x.1.stop)).map (·.2)

/-- Specification: the consumer belongs to the wanted categories at an instant. -/
def belongs (f : Filter) (parts : List (Period × Meta)) (t : DateTime) : Bool :=
  match at? parts t with
  | none => false
  | some m => keeps f m

/-- Specification: the volume of a rate in a period. -/
def volumeIn (r : RateTS) (conv : ℚ → ℚ) (p : Period) : ℚ :=
  (((triples r).filter fun x => decide (x.1 = p)).map fun x => conv (volOf r.rateType x)).sum

/-- Parts of which no two have an instant in common. -/
def Disjoint (parts : List (Period × Meta)) : Prop :=
  parts.Pairwise fun a b => ∀ t : DateTime, ¬ (a.1.start ≤ t ∧ t < a.1.stop ∧ b.1.start ≤ t ∧ t < b.1.stop)

/-- A consumer whose rate can be exported. -/
structure GoodSource (unit : Option EUnit) (s : Source) (conv : ℚ → ℚ) : Prop where
  rate : ∃ u, GoodRate s.rate u ∧ Converts unit u conv
  aligned : ∀ part ∈ s.parts, Aligned s.rate part.1
  disjoint : Disjoint s.parts

/-- The attributes of one consumer. -/
def attrsOf (s : Source) (conv : ℚ → ℚ) : List Attribute :=
  s.parts.map fun part => ⟨part.2, ((triples s.rate).filter fun x => decide (Inside part.1 x.1)).map
    fun x => (x.1, some (conv (volOf s.rate.rateType x)))⟩

theorem mapM_ok_of {α β ε : Type} (g : α → Except ε β) (h : α → β) (l : List α) (hg : ∀ a ∈ l, g a = .ok (h a)) :
    l.mapM g = .ok (l.map h) := by
  induction l with
  | nil => rfl
  | cons a t ih =>
    rw [List.mapM_cons, hg a (by simp), ih fun b hb => hg b (by simp [hb])]
    rfl

theorem attributes_eq (unit : Option EUnit) (sources : List Source) (conv : Source → ℚ → ℚ)
    (hs : ∀ s ∈ sources, GoodSource unit s (conv s)) :
    attributesOf unit sources = .ok (sources.flatMap fun s => attrsOf s (conv s)) := by
  unfold attributesOf
  rw [mapM_ok_of _ (fun s => attrsOf s (conv s))]
  · simp [Except.map, List.flatMap_def]
  · intro s h
    obtain ⟨⟨u, hr, hc⟩, ha, _⟩ := hs s h
    exact mapM_ok_of _ _ _ fun part hp => C47_attribute s.rate u hr unit (conv s) hc part.1 part.2 (ha part hp)

theorem wanted_append (f : Filter) (a b : List Attribute) : wanted f (a ++ b) = wanted f a ++ wanted f b := by
  simp [wanted]

theorem sum_ite {α : Type} (l : List α) (c : Prop) [Decidable c] (g : α → ℚ) :
    (l.map fun x => if c then g x else 0).sum = if c then (l.map g).sum else 0 := by
  by_cases h : c <;> simp [h]

theorem part_total (r : RateTS) (conv : ℚ → ℚ) (q p : Period) :
    total (((triples r).filter fun x => decide (Inside q x.1)).map fun x => (x.1, some (conv (volOf r.rateType x)))) p =
      if Inside q p then volumeIn r conv p else 0 := by
  unfold total volumeIn
  rw [List.filter_map, List.map_map, List.filter_filter]
  by_cases h : Inside q p
  · rw [if_pos h, List.filter_congr (q := fun x => decide (x.1 = p))]
    · rfl
    · intro x _
      simp only [Function.comp_apply, Bool.and_eq_left_iff_imp, decide_eq_true_eq]
      rintro rfl
      exact h
  · rw [if_neg h, List.filter_eq_nil_iff.2]
    · rfl
    · intro x _
      simp only [Function.comp_apply, Bool.and_eq_true, decide_eq_true_eq, not_and]
      rintro rfl
      exact h

theorem source_total (f : Filter) {unit : Option EUnit} {s : Source} {conv : ℚ → ℚ} (hs : GoodSource unit s conv)
    (p : Period) :
    total (wanted f (attrsOf s conv)) p = if belongs f s.parts p.start then volumeIn s.rate conv p else 0 := by
  obtain ⟨⟨u, hr, _⟩, ha, hd⟩ := hs
  by_cases hp : p ∈ s.rate.periods
  · have hpos := wf_nonempty hr.wf p hp
    have hin : ∀ part ∈ s.parts, Inside part.1 p ↔ part.1.start ≤ p.start ∧ p.start < part.1.stop := by
      intro part hm
      have h1 := (ha part hm).2 p hp part.1.start (.inl rfl)
      have h2 := (ha part hm).2 p hp part.1.stop (.inr rfl)
      unfold Inside
      omega
    unfold attrsOf
    revert hd hin
    generalize s.parts = parts
    intro hd hin
    induction parts with
    | nil => rfl
    | cons a t ih =>
      obtain ⟨hd1, hd2⟩ := List.pairwise_cons.1 hd
      have ih' := ih hd2 fun part hm => hin part (by simp [hm])
      have hsplit : ∀ (x : Attribute) (l : List Attribute), total (wanted f (x :: l)) p =
          (if keeps f x.info then total x.points p else 0) + total (wanted f l) p := by
        intro x l
        by_cases hk : keeps f x.info
        · simp [wanted, hk, total_append]
        · simp [wanted, hk]
      rw [List.map_cons, hsplit, ih', part_total]
      have ha' := hin a (by simp)
      by_cases hi : Inside a.1 p
      · have hc := ha'.1 hi
        have hnone : at? t p.start = none := by
          unfold at?
          rw [Option.map_eq_none_iff, List.find?_eq_none]
          intro b hb
          have := hd1 b hb p.start
          simp only [Bool.and_eq_true, decide_eq_true_eq]
          omega
        have hsome : at? (a :: t) p.start = some a.2 := by
          unfold at?
          rw [List.find?_cons_of_pos (by simpa using hc)]
          rfl
        unfold belongs
        simp [hnone, hsome, hi]
      · have hc : ¬ (a.1.start ≤ p.start ∧ p.start < a.1.stop) := fun h => hi (ha'.2 h)
        have hrest : at? (a :: t) p.start = at? t p.start := by
          unfold at?
          rw [List.find?_cons_of_neg (by simpa using hc)]
        unfold belongs
        simp [hrest, hi]
  · have hv : volumeIn s.rate conv p = 0 := by
      unfold volumeIn
      rw [List.filter_eq_nil_iff.2]
      · rfl
      · intro x hx he
        rw [decide_eq_true_eq] at he
        apply hp
        rw [← triples_periods hr.one, ← he]
        exact List.mem_map_of_mem hx
    rw [hv, ite_self]
    unfold total
    rw [List.filter_eq_nil_iff.2]
    · rfl
    · intro x hx he
      rw [decide_eq_true_eq] at he
      apply hp
      unfold wanted attrsOf at hx
      obtain ⟨a, ha1, ha2⟩ := List.mem_flatMap.1 hx
      obtain ⟨part, _, rfl⟩ := List.mem_map.1 (List.mem_filter.1 ha1).1
      obtain ⟨y, hy, rfl⟩ := List.mem_map.1 ha2
      rw [← triples_periods hr.one, ← he]
      exact List.mem_map_of_mem (List.mem_filter.1 hy).1

/-- The total of a query in a period is the sum, over the consumers that are in the wanted categories when the period
begins, of their volumes in the period. No consumer is counted twice however its categories change over time. -/
theorem C47_total (f : Filter) (unit : Option EUnit) (sources : List Source) (conv : Source → ℚ → ℚ)
    (hs : ∀ s ∈ sources, GoodSource unit s (conv s)) (p : Period) :
    ∃ attrs, attributesOf unit sources = .ok attrs ∧ total (wanted f attrs) p =
      (sources.map fun s => if belongs f s.parts p.start then volumeIn s.rate (conv s) p else 0).sum := by
  refine ⟨_, attributes_eq unit sources conv hs, ?_⟩
  induction sources with
  | nil => rfl
  | cons s t ih =>
    rw [List.flatMap_cons, wanted_append, total_append, ih fun x hx => hs x (by simp [hx]),
      source_total f (hs s (by simp)), List.map_cons, List.sum_cons]

/-- The whole path, at the frequency of the calculation: consumers, their attributes, the query. -/
theorem C47_export (f : Filter) (viaKilo : Bool) (unit : EUnit) (attributeUnit : Option EUnit) (e : Exportable)
    (sources : List Source) (conv : Source → ℚ → ℚ) (hs : ∀ s ∈ sources, GoodSource attributeUnit s (conv s))
    (hps : e.periods.Nodup) (hsub : ∀ s ∈ sources, ∀ p ∈ s.rate.periods, p ∈ e.periods)
    (hcat : ∀ c, f.installation = some c → e.category = some c)
    (hu : viaKilo = true → ∃ g h, unit.to .KILO = .ok g ∧ EUnit.KILO.to unit = .ok h) :
    ((attributesOf attributeUnit sources).bind fun attrs => queryVolumes f viaKilo unit .none e attrs) =
      .ok (some (e.periods.map fun p => (p, some
        (sources.map fun s => if belongs f s.parts p.start then volumeIn s.rate (conv s) p else 0).sum))) := by
  rw [attributes_eq attributeUnit sources conv hs]
  simp only [Except.bind]
  rw [C47_column f viaKilo unit e _ hps]
  · congr 2
    refine List.map_congr_left fun p _ => ?_
    obtain ⟨attrs, h1, h2⟩ := C47_total f attributeUnit sources conv hs p
    rw [attributes_eq attributeUnit sources conv hs] at h1
    cases h1
    rw [h2]
  · have hpt : ∀ pv ∈ wanted f (sources.flatMap fun s => attrsOf s (conv s)),
        pv.2 ≠ none ∧ pv.1 ∈ e.periods := by
      intro pv hpv
      unfold wanted attrsOf at hpv
      obtain ⟨a, ha1, ha2⟩ := List.mem_flatMap.1 hpv
      obtain ⟨s, hsm, ha3⟩ := List.mem_flatMap.1 (List.mem_filter.1 ha1).1
      obtain ⟨part, _, rfl⟩ := List.mem_map.1 ha3
      obtain ⟨y, hy, rfl⟩ := List.mem_map.1 ha2
      refine ⟨by simp, hsub s hsm _ ?_⟩
      obtain ⟨u, hr, _⟩ := (hs s hsm).rate
      rw [← triples_periods hr.one]
      exact List.mem_map_of_mem (List.mem_filter.1 hy).1
    exact ⟨hcat, fun pv h => (hpt pv h).1, fun pv h => (hpt pv h).2, hu⟩

/-- Queries that split the categories split the total: if every attribute that one query keeps is kept by exactly one
of several others, and no other attribute is kept by any of them, their columns add up to its column. -/
theorem C47_partition (f : Filter) (fs : List Filter)
    (h : ∀ m, (fs.filter fun g => keeps g m).length = if keeps f m then 1 else 0) (attrs : List Attribute)
    (p : Period) : total (wanted f attrs) p = (fs.map fun g => total (wanted g attrs) p).sum := by
  have hsplit : ∀ (f : Filter) (x : Attribute) (l : List Attribute), total (wanted f (x :: l)) p =
      (if keeps f x.info then total x.points p else 0) + total (wanted f l) p := by
    intro f x l
    by_cases hk : keeps f x.info
    · simp [wanted, hk, total_append]
    · simp [wanted, hk]
  have hcount : ∀ (m : Meta) (v : ℚ) (fs : List Filter),
      (fs.map fun g => if keeps g m then v else 0).sum = ((fs.filter fun g => keeps g m).length : ℚ) * v := by
    intro m v fs
    induction fs with
    | nil => simp
    | cons g t ih =>
      by_cases hk : keeps g m
      · simp [hk, ih]; ring
      · simp [hk, ih]
  induction attrs with
  | nil =>
    have : ∀ fs : List Filter, (fs.map fun g => total (wanted g []) p).sum = 0 := by
      intro fs
      induction fs with
      | nil => rfl
      | cons g t ih => rw [List.map_cons, List.sum_cons, ih, add_zero]; rfl
    rw [this]
    rfl
  | cons a t ih =>
    rw [hsplit, ih]
    have : (fs.map fun g => total (wanted g (a :: t)) p) =
        fs.map fun g => (if keeps g a.info then total a.points p else 0) + total (wanted g t) p :=
      List.map_congr_left fun g _ => hsplit g a t
    rw [this, List.sum_map_add, hcount, h a.info]
    by_cases hk : keeps f a.info <;> simp [hk]

/-- For example disjoint groups of consumer categories: the column of the union is the sum of the columns. -/
theorem C47_split_consumers (f : Filter) (a b : List String) (hab : ∀ c ∈ a, c ∉ b) (attrs : List Attribute)
    (p : Period) :
    total (wanted { f with consumers := some (a ++ b) } attrs) p =
      total (wanted { f with consumers := some a } attrs) p + total (wanted { f with consumers := some b } attrs) p := by
  rw [C47_partition _ [{ f with consumers := some a }, { f with consumers := some b }]]
  · simp
  · intro m
    unfold keeps memberOr
    cases hc : m.consumer with
    | none => simp
    | some c =>
      by_cases h1 : c ∈ a
      · have h2 := hab c h1
        by_cases hk : equalOr f.fuel m.fuel && memberOr f.producers m.producer && equalOr f.emission m.emission
        all_goals simp_all [memberOr]
      · by_cases h2 : c ∈ b
        all_goals
          by_cases hk : equalOr f.fuel m.fuel && memberOr f.producers m.producer && equalOr f.emission m.emission
        all_goals simp_all [memberOr]

/-! ## Combining categories -/

/-- Specification: the category in force at an instant, if there is a model. -/
def inForce {α : Type} (m : Option (TModel α)) (t : DateTime) : Option α := m.bind fun m => at? m t

theorem categoryFor_eq {α : Type} (m : Option (TModel α)) (q : Period) (t : DateTime) (h1 : q.start ≤ t)
    (h2 : t < q.stop) (hb : ∀ d ∈ datesOf m, d ≤ q.start ∨ q.stop ≤ d) : categoryFor m q = inForce m t := by
  cases m with
  | none => rfl
  | some m =>
    have hfind : m.find? (fun pm => pm.1.containsPeriod q) =
        m.find? (fun x => decide (x.1.start ≤ t) && decide (t < x.1.stop)) := by
      have hp : ∀ x ∈ m, x.1.containsPeriod q = (decide (x.1.start ≤ t) && decide (t < x.1.stop)) := by
        intro x hx
        have a1 := hb x.1.start (List.mem_flatMap.2 ⟨x, hx, by simp⟩)
        have a2 := hb x.1.stop (List.mem_flatMap.2 ⟨x, hx, by simp⟩)
        unfold Period.containsPeriod
        rw [Bool.eq_iff_iff]
        simp only [Bool.and_eq_true, decide_eq_true_eq]
        omega
      clear hb
      induction m with
      | nil => rfl
      | cons x m ih =>
        rw [List.find?_cons, List.find?_cons, hp x (by simp), ih fun y hy => hp y (by simp [hy])]
    unfold categoryFor inForce at? TModel.getModelForPeriod
    simp only [hfind, Option.bind_some]
    cases m.find? (fun x => decide (x.1.start ≤ t) && decide (t < x.1.stop)) <;> rfl

theorem pairs_gap {l : List Int} (hl : l.Pairwise (· < ·)) {q : Period} (hq : q ∈ Periods.pairs l) :
    q.start < q.stop ∧ ∀ d ∈ l, d ≤ q.start ∨ q.stop ≤ d := by
  obtain ⟨k, hk, rfl⟩ := List.mem_iff_getElem.1 hq
  obtain ⟨h1, h2, he⟩ := C19.pairs_get l k hk
  rw [he]
  have hlt := List.pairwise_iff_getElem.1 hl
  refine ⟨hlt k (k + 1) h1 h2 (by omega), fun d hd => ?_⟩
  obtain ⟨j, hj, rfl⟩ := List.mem_iff_getElem.1 hd
  rcases Nat.lt_or_ge k j with h | h
  · right
    rcases Nat.eq_or_lt_of_le h with h | h
    · simp only [Nat.succ_eq_add_one] at h
      subst h
      exact le_refl _
    · exact le_of_lt (hlt (k + 1) j h2 hj h)
  · left
    rcases Nat.eq_or_lt_of_le h with h | h
    · subst h
      exact le_refl _
    · exact le_of_lt (hlt j k hj h1 h)

theorem pairs_cover {l : List Int} {t a b : Int} (ha : a ∈ l) (hb : b ∈ l) (h1 : a ≤ t) (h2 : t < b)
    (hl : l.Pairwise (· < ·)) : ∃ q ∈ Periods.pairs l, q.start ≤ t ∧ t < q.stop := by
  induction l generalizing a with
  | nil => simp at ha
  | cons x l ih =>
    obtain ⟨hx, hl'⟩ := List.pairwise_cons.1 hl
    cases l with
    | nil =>
      simp only [List.mem_singleton] at ha hb
      omega
    | cons y l =>
      rw [Periods.pairs]
      by_cases hy : t < y
      · refine ⟨⟨x, y⟩, by simp, ?_, hy⟩
        show x ≤ t
        rcases List.mem_cons.1 ha with rfl | ha
        · exact h1
        · have := hx a ha
          omega
      · have hb' : b ∈ y :: l := by
          rcases List.mem_cons.1 hb with rfl | hb
          · have := hx y (by simp)
            omega
          · exact hb
        obtain ⟨q, hq, hh⟩ := ih (a := y) (by simp) hb' (by omega) hl'
        exact ⟨q, List.mem_cons_of_mem _ hq, hh⟩

/-- Combining categories that change at different times: the parts do not overlap, together they cover every instant
at which any of the models is defined, and at each instant of a part its categories are those in force there. -/
theorem C47_combine (fuel : Option (TModel (Option String))) (consumer producer : Option (TModel String))
    (parts : List (Period × Meta)) (h : combine fuel consumer producer = .ok parts) :
    Disjoint parts ∧
    (∀ part ∈ parts, part.1.start < part.1.stop ∧ ∀ t : DateTime, part.1.start ≤ t → t < part.1.stop →
      part.2 = ⟨(inForce fuel t).bind id, inForce consumer t, inForce producer t, none⟩) ∧
    (∀ t : DateTime, (inForce fuel t).isSome ∨ (inForce consumer t).isSome ∨ (inForce producer t).isSome →
      at? parts t = some ⟨(inForce fuel t).bind id, inForce consumer t, inForce producer t, none⟩) := by
  unfold combine at h
  split at h
  · cases h
  · simp only [Except.ok.injEq] at h
    rw [C19.create_pairs] at h
    have hsorted := pairwise_sortedSet (datesOf fuel ++ datesOf consumer ++ datesOf producer)
    have hmem := mem_sortedSet (datesOf fuel ++ datesOf consumer ++ datesOf producer)
    revert hsorted hmem h
    generalize sortedSet (datesOf fuel ++ datesOf consumer ++ datesOf producer) = ds
    intro h hsorted hmem
    subst h
    have hin : ∀ part ∈ (Periods.pairs ds).map fun q =>
        (q, (⟨(categoryFor fuel q).bind id, categoryFor consumer q, categoryFor producer q, none⟩ : Meta)),
        part.1.start < part.1.stop ∧ ∀ t : DateTime, part.1.start ≤ t → t < part.1.stop →
        part.2 = ⟨(inForce fuel t).bind id, inForce consumer t, inForce producer t, none⟩ := by
      intro part hpart
      obtain ⟨q, hq, rfl⟩ := List.mem_map.1 hpart
      obtain ⟨g1, g2⟩ := pairs_gap hsorted hq
      refine ⟨g1, fun t ht1 ht2 => ?_⟩
      rw [categoryFor_eq fuel q t ht1 ht2 fun d hd => g2 d ((hmem d).2 (by simp [hd])),
        categoryFor_eq consumer q t ht1 ht2 fun d hd => g2 d ((hmem d).2 (by simp [hd])),
        categoryFor_eq producer q t ht1 ht2 fun d hd => g2 d ((hmem d).2 (by simp [hd]))]
    refine ⟨?_, hin, ?_⟩
    · unfold Disjoint
      rw [List.pairwise_map]
      rw [List.pairwise_iff_getElem]
      intro i j hi hj hij t ht
      obtain ⟨_, _, e1⟩ := C19.pairs_get ds i hi
      obtain ⟨_, _, e2⟩ := C19.pairs_get ds j hj
      simp only [e1, e2] at ht
      have hlt := List.pairwise_iff_getElem.1 hsorted
      have : ds[i + 1] ≤ ds[j] := by
        rcases Nat.eq_or_lt_of_le (show i + 1 ≤ j from hij) with h | h
        · subst h
          exact le_refl _
        · exact le_of_lt (hlt (i + 1) j _ _ h)
      omega
    · intro t ht
      have hbound : ∀ {α : Type} (m : Option (TModel α)), (inForce m t).isSome →
          ∃ a ∈ datesOf m, ∃ b ∈ datesOf m, a ≤ t ∧ t < b := by
        intro α m hm
        cases m with
        | none => simp [inForce] at hm
        | some m =>
          unfold inForce at? at hm
          simp only [Option.bind_some, Option.isSome_map] at hm
          obtain ⟨x, hx⟩ := Option.isSome_iff_exists.1 hm
          have h1 := List.find?_some hx
          have h2 := List.mem_of_find?_eq_some hx
          simp only [Bool.and_eq_true, decide_eq_true_eq] at h1
          exact ⟨x.1.start, List.mem_flatMap.2 ⟨x, h2, by simp⟩, x.1.stop, List.mem_flatMap.2 ⟨x, h2, by simp⟩, h1⟩
      have hab : ∃ a ∈ ds, ∃ b ∈ ds, a ≤ t ∧ t < b := by
        rcases ht with ht | ht | ht
        all_goals
          obtain ⟨a, ha, b, hb, hh⟩ := hbound _ ht
          exact ⟨a, (hmem a).2 (by simp [ha]), b, (hmem b).2 (by simp [hb]), hh⟩
      obtain ⟨a, ha, b, hb, h1, h2⟩ := hab
      obtain ⟨q, hq, hq1, hq2⟩ := pairs_cover ha hb h1 h2 hsorted
      unfold at?
      rcases hf : ((Periods.pairs ds).map fun q => (q, (⟨(categoryFor fuel q).bind id, categoryFor consumer q,
          categoryFor producer q, none⟩ : Meta))).find?
          (fun x => decide (x.1.start ≤ t) && decide (t < x.1.stop)) with _ | x
      · have := List.find?_eq_none.1 hf _ (List.mem_map_of_mem hq)
        simp only [Bool.and_eq_true, decide_eq_true_eq] at this
        exact absurd ⟨hq1, hq2⟩ this
      · have h1 := List.find?_some hf
        have h2 := List.mem_of_find?_eq_some hf
        simp only [Bool.and_eq_true, decide_eq_true_eq] at h1
        rw [hf, Option.map_some, (hin x h2).2 t h1.1 h1.2]

/-! ## The table -/

theorem insertPeriod_head {p : Period} {t : List Period} (h : ∀ q ∈ t, p.start < q.start) :
    insertPeriod p t = p :: t := by
  cases t with
  | nil => rfl
  | cons q t =>
    have h1 := h q (by simp)
    have hne : p ≠ q := fun e => by rw [e] at h1; omega
    have hle : Period.le p q = true := by
      unfold Period.le
      simp [h1]
    simp [insertPeriod, hne, hle]

theorem sortedPeriods_wf {ps : Periods} (h : WF ps) : sortedPeriods ps = ps := by
  have hlt : ∀ (t : Periods) (p : Period), WF (p :: t) → ∀ q ∈ t, p.start < q.start := by
    intro t p hw q hq
    have h1 : p.start < p.stop := wf_nonempty hw p (by simp)
    cases t with
    | nil => simp at hq
    | cons a t =>
      obtain ⟨_, h2, h3⟩ := hw
      have := wf_head h3 rfl q hq
      omega
  induction ps with
  | nil => rfl
  | cons p t ih =>
    have htail : WF t := by
      cases t with
      | nil => trivial
      | cons a t => exact h.2.2
    have ih' : List.foldr insertPeriod [] t = t := ih htail
    unfold sortedPeriods
    rw [List.foldr_cons, ih']
    exact insertPeriod_head (hlt t p h)

/-- Earlier start first, then earlier end. -/
def Before (p q : Period) : Prop := p.start < q.start ∨ p.start = q.start ∧ p.stop < q.stop

theorem insertPeriod_spec (p : Period) (l : List Period) (h : l.Pairwise Before) :
    (insertPeriod p l).Pairwise Before ∧ ∀ q, q ∈ insertPeriod p l ↔ q = p ∨ q ∈ l := by
  induction l with
  | nil => simp [insertPeriod]
  | cons a l ih =>
    obtain ⟨h1, h2⟩ := List.pairwise_cons.1 h
    obtain ⟨k1, k2⟩ := ih h2
    unfold insertPeriod
    by_cases e : p = a
    · rw [if_pos e]
      exact ⟨h, by intro q; subst e; simp⟩
    · rw [if_neg e]
      by_cases hle : Period.le p a = true
      · rw [if_pos hle]
        have hb : Before p a := by
          have hne : ¬ (p.start = a.start ∧ p.stop = a.stop) := fun h => e (by cases p; cases a; simp_all)
          unfold Period.le at hle
          simp only [Bool.or_eq_true, Bool.and_eq_true, decide_eq_true_eq] at hle
          unfold Before
          omega
        refine ⟨List.pairwise_cons.2 ⟨fun q hq => ?_, h⟩, by intro q; simp⟩
        rcases List.mem_cons.1 hq with rfl | hq
        · exact hb
        · have := h1 q hq
          unfold Before at *
          omega
      · rw [if_neg hle]
        refine ⟨List.pairwise_cons.2 ⟨fun q hq => ?_, k1⟩, by
          intro q; rw [List.mem_cons, k2, List.mem_cons]; tauto⟩
        rcases (k2 q).1 hq with rfl | hq
        · unfold Period.le at hle
          simp only [Bool.or_eq_true, Bool.and_eq_true, decide_eq_true_eq] at hle
          have hne : ¬ (q.start = a.start ∧ q.stop = a.stop) := fun h => e (by cases q; cases a; simp_all)
          unfold Before
          omega
        · exact h1 q hq

theorem sortedPeriods_spec (l : List Period) :
    (sortedPeriods l).Pairwise Before ∧ ∀ q, q ∈ sortedPeriods l ↔ q ∈ l := by
  induction l with
  | nil => simp [sortedPeriods]
  | cons a l ih =>
    obtain ⟨h1, h2⟩ := insertPeriod_spec a (sortedPeriods l) ih.1
    exact ⟨h1, fun q => (h2 q).trans (by rw [ih.2, List.mem_cons])⟩

theorem before_unique {a b : List Period} (ha : a.Pairwise Before) (hb : b.Pairwise Before)
    (h : ∀ q, q ∈ a ↔ q ∈ b) : a = b := by
  have irr : ∀ p, ¬ Before p p := by intro p h; unfold Before at h; omega
  have asy : ∀ p q, Before p q → ¬ Before q p := by intro p q h k; unfold Before at *; omega
  have na : a.Nodup := by
    refine List.Pairwise.imp ?_ ha
    intro x y h e
    exact irr x (by rw [← e] at h; exact h)
  have nb : b.Nodup := by
    refine List.Pairwise.imp ?_ hb
    intro x y h e
    exact irr x (by rw [← e] at h; exact h)
  refine List.Perm.eq_of_pairwise (le := Before) (fun x y _ _ h k => absurd k (asy x y h)) ha hb ?_
  exact (List.perm_ext_iff_of_nodup na nb).2 h

/-- The rows of any table, whatever order the periods have in the columns: accepted exactly when all columns have the
same periods, and then every period is one row, the earliest first. -/
theorem C47_rows {β : Type} (results : List (String × List (Period × β))) (hne : results ≠ []) :
    ((∃ l, rows results = .ok l) ↔
      ∀ r ∈ results, ∀ r' ∈ results, ∀ p, (∃ v, (p, v) ∈ r.2) ↔ ∃ v, (p, v) ∈ r'.2) ∧
    ∀ l, rows results = .ok l → l.Pairwise Before ∧ ∀ r ∈ results, ∀ p, p ∈ l ↔ ∃ v, (p, v) ∈ r.2 := by
  have mem : ∀ (r : String × List (Period × β)) (p : Period), p ∈ sortedPeriods (r.2.map (·.1)) ↔ ∃ v, (p, v) ∈ r.2 := by
    intro r p
    rw [(sortedPeriods_spec _).2, List.mem_map]
    exact ⟨fun ⟨⟨q, v⟩, h, e⟩ => ⟨v, by simp only at e; rw [← e]; exact h⟩, fun ⟨v, h⟩ => ⟨(p, v), h, rfl⟩⟩
  cases results with
  | nil => exact absurd rfl hne
  | cons r rest =>
    unfold rows
    by_cases hall : (rest.all fun r' => decide (sortedPeriods (r.2.map (·.1)) = sortedPeriods (r'.2.map (·.1)))) = true
    · simp only [hall, if_true]
      rw [List.all_eq_true] at hall
      simp only [decide_eq_true_eq] at hall
      have same : ∀ x ∈ r :: rest, ∀ p, p ∈ sortedPeriods (r.2.map (·.1)) ↔ ∃ v, (p, v) ∈ x.2 := by
        intro x hx p
        rcases List.mem_cons.1 hx with rfl | hx
        · exact mem x p
        · rw [hall x hx]; exact mem x p
      refine ⟨⟨fun _ x hx y hy p => ?_, fun _ => ⟨_, rfl⟩⟩, ?_⟩
      · rw [← same x hx, ← same y hy]
      · intro l hl
        cases hl
        exact ⟨(sortedPeriods_spec _).1, same⟩
    · simp only [hall]
      refine ⟨⟨fun ⟨l, h⟩ => by simp at h, fun h => absurd ?_ hall⟩, fun l h => by simp at h⟩
      rw [List.all_eq_true]
      intro x hx
      rw [decide_eq_true_eq]
      refine before_unique (sortedPeriods_spec _).1 (sortedPeriods_spec _).1 fun p => ?_
      rw [mem, mem]
      exact h r List.mem_cons_self x (List.mem_cons_of_mem _ hx) p

/-- Columns over the same consecutive periods make a table: the rows are those periods, in order, and the cell of a
row and a column is that column's value of the row. -/
theorem C47_table {β : Type} (nps : Periods) (hw : WF nps) (columns : List (String × (Period → β)))
    (hne : columns ≠ []) (hnames : (columns.map (·.1)).Nodup) :
    rows (columns.map fun c => (c.1, nps.map fun p => (p, c.2 p))) = .ok nps ∧
    ∀ c ∈ columns, ∀ p ∈ nps, cell (columns.map fun c => (c.1, nps.map fun p => (p, c.2 p))) p c.1 = .ok (c.2 p) := by
  constructor
  · cases columns with
    | nil => exact absurd rfl hne
    | cons c t =>
      unfold rows
      simp only [List.map_cons]
      rw [if_pos]
      · simp [Function.comp_def, sortedPeriods_wf hw]
      · simp [List.all_eq_true, Function.comp_def]
  · intro c hc p hp
    have hfind : ∀ (l : List (String × (Period → β))), (l.map (·.1)).Nodup → c ∈ l →
        (l.map fun c => (c.1, nps.map fun p => (p, c.2 p))).find? (fun r => decide (r.1 = c.1)) =
          some (c.1, nps.map fun p => (p, c.2 p)) := by
      intro l hn hm
      induction l with
      | nil => simp at hm
      | cons a l ih =>
        simp only [List.map_cons, List.nodup_cons] at hn
        rw [List.map_cons]
        rcases List.mem_cons.1 hm with rfl | hm
        · rw [List.find?_cons_of_pos (by simp)]
        · have : a.1 ≠ c.1 := fun e => hn.1 (by rw [e]; exact List.mem_map_of_mem hm)
          rw [List.find?_cons_of_neg (by simpa using this)]
          exact ih hn.2 hm
    have hlook : ∀ (l : List Period), p ∈ l → (l.map fun p => (p, c.2 p)).lookup p = some (c.2 p) := by
      intro l hm
      induction l with
      | nil => simp at hm
      | cons a l ih =>
        rw [List.map_cons, List.lookup_cons]
        by_cases ha : p = a
        · subst ha
          simp
        · rw [beq_eq_false_iff_ne.2 ha]
          rcases List.mem_cons.1 hm with rfl | hm
          · exact absurd rfl ha
          · exact ih hm
    unfold cell
    rw [hfind columns hnames hc]
    simp only [hlook nps hp]

/-! ## Findings and examples -/

/-- A query without restrictions. -/
def anything : Filter := ⟨none, none, none, none, none⟩

/-- Ten days starting 1970-01-01. -/
def tenDays : Period := ⟨0, 864000000000⟩

/-- FINDING: a missing value of one consumer makes the exported total of the whole group 0 in that period, although
the others have consumed something. -/
theorem C47_nan_hides : ∃ (a b : Attribute) (e : Exportable),
    total (wanted anything [a]) tenDays = 5 ∧
    queryVolumes anything false .STANDARD_CUBIC_METER .none e [a, b] = .ok (some [(tenDays, some 0)]) := by
  refine ⟨⟨⟨none, none, none, none⟩, [(tenDays, some 5)]⟩, ⟨⟨none, none, none, none⟩, [(tenDays, none)]⟩,
    ⟨"A", none, [tenDays]⟩, ?_, ?_⟩ <;> decide +kernel

/-- FINDING: "maximum usage from shore" at a coarser frequency is the value at the beginning of the reporting period,
not its maximum: 10 until the middle of the year and 20 afterwards is exported as 10. -/
theorem C47_max_is_not_max : ∃ (attrs : List Attribute) (e : Exportable) (a b c : DateTime),
    attrs.flatMap (·.points) = [(⟨a, b⟩, some 10), (⟨b, c⟩, some 20)] ∧ e.periods = [⟨a, b⟩, ⟨b, c⟩] ∧
    queryMax anything .MEGA_WATT .year e attrs = .ok (some [(⟨a, c⟩, some 10)]) := by
  refine ⟨[⟨⟨none, none, none, none⟩, [(⟨0, 15638400000000⟩, some 10), (⟨15638400000000, 31536000000000⟩, some 20)]⟩],
    ⟨"A", none, [⟨0, 15638400000000⟩, ⟨15638400000000, 31536000000000⟩]⟩, 0, 15638400000000, 31536000000000, rfl, rfl,
    ?_⟩
  decide +kernel

/-- A consumer that changes category after ten days; a second consumer that does not. -/
def changing : Source :=
  ⟨⟨[⟨0, 864000000000⟩, ⟨864000000000, 1728000000000⟩], [some 3, some 4], .STANDARD_CUBIC_METER_PER_DAY, .streamDay,
    [some (1 / 2), some 1]⟩,
   [(⟨0, 864000000000⟩, ⟨none, some "BASE-LOAD", none, none⟩), (⟨864000000000, dtMax⟩, ⟨none, some "FLARE", none, none⟩)]⟩

example : ∃ attrs, attributesOf none [changing] = .ok attrs ∧
    queryVolumes { anything with consumers := some ["FLARE"] } false .STANDARD_CUBIC_METER .none
      ⟨"A", none, [⟨0, 864000000000⟩, ⟨864000000000, 1728000000000⟩]⟩ attrs =
      .ok (some [(⟨0, 864000000000⟩, some 0), (⟨864000000000, 1728000000000⟩, some 40)]) ∧
    queryVolumes { anything with consumers := some ["BASE-LOAD"] } false .STANDARD_CUBIC_METER .none
      ⟨"A", none, [⟨0, 864000000000⟩, ⟨864000000000, 1728000000000⟩]⟩ attrs =
      .ok (some [(⟨0, 864000000000⟩, some 15), (⟨864000000000, 1728000000000⟩, some 0)]) := by
  refine ⟨_, rfl, ?_, ?_⟩ <;> decide +kernel

example : GoodSource none changing id := by
  refine ⟨⟨.STANDARD_CUBIC_METER, ⟨by decide +kernel, ⟨rfl, rfl⟩, by decide +kernel, by decide +kernel, rfl⟩, rfl⟩, ?_, ?_⟩
  · unfold Aligned changing
    simp only [List.mem_cons, List.not_mem_nil, or_false, forall_eq_or_imp, forall_eq]
    unfold dtMax
    omega
  · unfold Disjoint changing
    simp only [List.pairwise_cons, List.mem_cons, List.not_mem_nil, or_false, forall_eq, List.Pairwise.nil, and_true]
    refine ⟨fun t => by omega, by simp⟩

example : combine (some [(⟨0, 100⟩, some "GAS")]) (some [(⟨0, 50⟩, "A"), (⟨50, 200⟩, "B")]) none =
    .ok [(⟨0, 50⟩, ⟨some "GAS", some "A", none, none⟩), (⟨50, 100⟩, ⟨some "GAS", some "B", none, none⟩),
      (⟨100, 200⟩, ⟨none, some "B", none, none⟩)] := by decide +kernel

example : rows [("x", [((⟨0, 1⟩ : Period), (5 : ℚ))]), ("y", [(⟨1, 2⟩, 5)])] = .error .assertion := by decide +kernel

/-- The columns may list the periods in any order. -/
example : rows [("x", [((⟨1, 2⟩ : Period), (5 : ℚ)), (⟨0, 1⟩, 4)]), ("y", [(⟨0, 1⟩, 5), (⟨1, 2⟩, 6)])] =
    .ok [⟨0, 1⟩, ⟨1, 2⟩] := by decide +kernel

end Verif.C47
