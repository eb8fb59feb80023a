import Verif.Model.StreamMap
import Mathlib.Data.List.Nodup
import Mathlib.Data.List.Count
import Mathlib.Data.List.Perm.Basic

/-!
# C92: streams of a compressor train go to the stages that mention them
-/

namespace Verif.C92
open Verif.StreamMap
open Verif.Train (Port)

/-! ## Specification -/

/-- The stage with this number mentions the stream. -/
def Mentions (t : YTrain) (k : Nat) (name : String) : Prop := ∃ st, t.stages[k]? = some st ∧ name ∈ st.streams

/-- Streams have different names, each is mentioned by exactly one stage and once, and the first stage has an inlet. -/
structure WellFormed (t : YTrain) : Prop where
  names : (t.streams.map (·.name)).Nodup
  once : ∀ st ∈ t.stages, st.streams.Nodup
  one : ∀ i j name, Mentions t i name → Mentions t j name → i = j
  all : ∀ s ∈ t.streams, ∃ k, Mentions t k s.name
  first : ∃ s ∈ t.streams, s.fluid.isSome = true ∧ Mentions t 0 s.name

/-- Where a stream belongs: into or out of the stage that mentions it. -/
def Belongs (t : YTrain) (s : YStream) (p : Port) : Prop := p.inlet = s.fluid.isSome ∧ Mentions t p.stage s.name

/-- The streams are listed in the order of the stages, at each stage outgoing ones first, after a first one into the first
stage. -/
def InOrder (places : List Port) : Prop :=
  places.head? = some ⟨true, 0⟩ ∧
  places.tail.Pairwise fun p q => p.stage < q.stage ∨ (p.stage = q.stage ∧ (p.inlet = true → q.inlet = true))

/-- What should leave at stage `k`: the rates of the outgoing streams the stage mentions. -/
def outOf (t : YTrain) (rates : List ℚ) (k : Nat) : List ℚ :=
  (t.streams.zip rates).filterMap fun x =>
    match t.stages[k]? with
    | some st => if x.1.fluid = none ∧ x.1.name ∈ st.streams then some x.2 else none
    | none => none

/-- What should enter at stage `k` in addition to what comes from the stage before: fluid and rate of the ingoing streams
the stage mentions, without the first stream of the train. -/
def into (t : YTrain) (rates : List ℚ) (k : Nat) : List Inflow :=
  ((t.streams.zip rates).drop 1).filterMap fun x =>
    match t.stages[k]?, x.1.fluid with
    | some st, some f => if x.1.name ∈ st.streams then some (f, x.2) else none
    | _, _ => none

/-! ## No stage is dropped -/

theorem lookup_setdefault (d : List (String × Nat)) (k r : String) (v : Nat) :
    (setdefault d k v).1.lookup r = if r = k then some ((d.lookup k).getD v) else d.lookup r := by
  unfold setdefault
  cases hl : d.lookup k with
  | some w =>
    by_cases h : r = k
    · subst h; simp [hl]
    · simp [h]
  | none =>
    simp only [Option.getD_none, List.lookup_cons]
    by_cases h : r = k
    · simp [h]
    · have : (r == k) = false := by simpa using h
      rw [this]; simp [h]

theorem setdefault_value (d : List (String × Nat)) (k : String) (v : Nat) : (setdefault d k v).2 = (d.lookup k).getD v := by
  unfold setdefault
  cases d.lookup k <;> rfl

/-- The dict knows only stages that mention the stream. -/
def Inv (t : YTrain) (d : List (String × Nat)) : Prop := ∀ r j, d.lookup r = some j → Mentions t j r

theorem Inv.setdefault {t : YTrain} {d : List (String × Nat)} (h : Inv t d) {r : String} {k : Nat} (hm : Mentions t k r) :
    Inv t (setdefault d r k).1 := by
  intro r' j hj
  rw [lookup_setdefault] at hj
  by_cases hr : r' = r
  · subst hr
    rw [if_pos rfl] at hj
    cases hl : d.lookup r' with
    | none => rw [hl] at hj; cases hj; exact hm
    | some w => rw [hl] at hj; cases hj; exact h _ _ hl
  · rw [if_neg hr] at hj
    exact h _ _ hj

theorem inv_noteStage {t : YTrain} (names : List String) (k : Nat) (rs : List String) (hm : ∀ r ∈ rs, Mentions t k r) :
    ∀ d, Inv t d → Inv t (noteStage names k d rs) := by
  induction rs with
  | nil => intro d h; exact h
  | cons r rs ih =>
    intro d h
    refine ih (fun r' hr' => hm r' (List.mem_cons_of_mem _ hr')) _ ?_
    by_cases hr : r ∈ names
    · rw [if_pos hr]; exact h.setdefault (hm r (by simp))
    · rw [if_neg hr]; exact h

theorem mentions_append {t : YTrain} {pre ss : List YStage} {s : YStage} (ht : t.stages = pre ++ s :: ss) {r : String}
    (hr : r ∈ s.streams) : Mentions t pre.length r :=
  ⟨s, by rw [ht]; simp, hr⟩

theorem inv_noteStages {t : YTrain} (names : List String) (ss : List YStage) : ∀ (pre : List YStage) d,
    t.stages = pre ++ ss → Inv t d → Inv t (noteStages names pre.length d ss) := by
  induction ss with
  | nil => intro pre d _ h; exact h
  | cons s ss ih =>
    intro pre d ht h
    have := ih (pre ++ [s]) (noteStage names pre.length d s.streams) (by simp [ht])
      (inv_noteStage names _ _ (fun r hr => mentions_append ht hr) d h)
    rw [List.length_append] at this
    exact this

theorem taken_false {t : YTrain} (one : ∀ i j name, Mentions t i name → Mentions t j name → i = j) (names : List String)
    (k : Nat) (rs : List String) (hm : ∀ r ∈ rs, Mentions t k r) : ∀ d, Inv t d →
    (taken names k d rs).1 = false ∧ Inv t (taken names k d rs).2 := by
  induction rs with
  | nil => intro d h; exact ⟨rfl, h⟩
  | cons r rs ih =>
    intro d h
    have hr := hm r (by simp)
    have ih := ih fun r' hr' => hm r' (List.mem_cons_of_mem _ hr')
    have hval : (StreamMap.setdefault d r k).2 = k := by
      rw [setdefault_value]
      cases hl : d.lookup r with
      | none => rfl
      | some w => exact one _ _ _ (h _ _ hl) hr
    unfold taken
    by_cases hc : r ∉ names ∨ (d.lookup r).isSome = true
    · rw [if_pos hc, if_neg (by simp [hval])]
      exact ih _ (h.setdefault hr)
    · rw [if_neg hc]
      exact ih _ h

/-- Stages with their numbers. -/
def numbered : Nat → List YStage → List (Nat × YStage)
  | _, [] => []
  | k, s :: ss => (k, s) :: numbered (k + 1) ss

theorem kept_all {t : YTrain} (one : ∀ i j name, Mentions t i name → Mentions t j name → i = j) (names : List String)
    (ss : List YStage) : ∀ (pre : List YStage) d, t.stages = pre ++ ss → Inv t d →
    kept names pre.length d ss = numbered pre.length ss := by
  induction ss with
  | nil => intro pre d _ _; rfl
  | cons s ss ih =>
    intro pre d ht h
    obtain ⟨h1, h2⟩ := taken_false one names pre.length s.streams (fun r hr => mentions_append ht hr) d h
    have := ih (pre ++ [s]) _ (by simp [ht]) h2
    rw [List.length_append] at this
    unfold kept numbered
    rw [if_neg (by simp [h1])]
    exact congrArg _ this

/-- The train in the file, stage by stage. -/
def asWritten (t : YTrain) : List MStage := (numbered 0 t.stages).map (stageOf t.streams)

theorem map_wf {t : YTrain} (hw : WellFormed t) :
    t.map = .ok ⟨asWritten t, t.streams.map (·.fluid), interstageOf 0 (asWritten t)⟩ := by
  unfold YTrain.map
  have hk := kept_all hw.one (t.streams.map (·.name)) t.stages [] (noteStages (t.streams.map (·.name)) 0 [] t.stages) rfl
    (inv_noteStages (t := t) _ t.stages [] [] rfl (by intro r j h; cases h))
  simp only [List.length_nil] at hk
  dsimp only
  rw [hk]
  obtain ⟨s, hs, hf, -⟩ := hw.first
  rw [if_pos]
  · rfl
  · rw [List.any_eq_true]
    exact ⟨s.fluid, List.mem_map_of_mem hs, hf⟩

theorem numbered_get (ss : List YStage) : ∀ (k i : Nat), (numbered k ss)[i]? = (ss[i]?).map (k + i, ·) := by
  induction ss with
  | nil => intro k i; simp [numbered]
  | cons s ss ih =>
    intro k i
    cases i with
    | zero => simp [numbered]
    | succ i => simp [numbered, ih]; congr 1; funext x; congr 1; omega

/-! ## Ports -/

theorem count_eq (streams : List YStream) (b : Bool) (refs : List String) (hn : refs.Nodup) :
    count streams b refs = (streams.filter fun s => s.name ∈ refs ∧ s.fluid.isSome = b).length := by
  unfold count
  induction refs with
  | nil => simp
  | cons r rs ih =>
    rw [List.nodup_cons] at hn
    rw [List.map_cons, List.sum_cons, ih hn.2]
    clear ih
    induction streams with
    | nil => rfl
    | cons s streams ihs =>
      simp only [List.filter_cons, List.mem_cons]
      by_cases h1 : s.name = r
      · have h2 : s.name ∉ rs := h1 ▸ hn.1
        by_cases hb : s.fluid.isSome = b
        · simp [h1, hb] at ihs ⊢
          simp [hn.1]
          omega
        · simp [h1, hb] at ihs ⊢
          exact ihs
      · by_cases h2 : s.name ∈ rs
        · by_cases hb : s.fluid.isSome = b
          · simp [h1, h2, hb] at ihs ⊢
            omega
          · simp [h1, h2, hb] at ihs ⊢
            exact ihs
        · simp [h1, h2] at ihs ⊢
          exact ihs

theorem portsFrom_count (ss : List MStage) : ∀ (i : Nat) (b : Bool) (k : Nat), (portsFrom i ss).count ⟨b, k⟩ =
    if k < i then 0 else match ss[k - i]? with
      | some s => if b then s.ins else s.outs
      | none => 0 := by
  induction ss with
  | nil => intro i b k; simp [portsFrom]
  | cons s ss ih =>
    intro i b k
    simp only [portsFrom, List.count_append, List.count_replicate, ih]
    by_cases h1 : k < i
    · have : i ≠ k := by omega
      have h2 : k < i + 1 := by omega
      simp [h1, h2, this]
    · by_cases h2 : i = k
      · subst h2
        cases b <;> simp
      · have h3 : ¬ k < i + 1 := by omega
        obtain ⟨m, hm⟩ : ∃ m, k - i = m + 1 := ⟨k - i - 1, by omega⟩
        have hm' : k - (i + 1) = m := by omega
        simp [h1, h2, h3, hm, hm']

theorem asWritten_get (t : YTrain) (k : Nat) : (asWritten t)[k]? = (t.stages[k]?).map fun st => stageOf t.streams (k, st) := by
  unfold asWritten
  rw [List.getElem?_map, numbered_get]
  simp [Function.comp_def]

theorem forall₂_count {t : YTrain} (hw : WellFormed t) (k : Nat) (b : Bool) (st : YStage) (hst : t.stages[k]? = some st)
    {l : List YStream} {places : List Port} (h : List.Forall₂ (Belongs t) l places) :
    places.count ⟨b, k⟩ = (l.filter fun s => s.name ∈ st.streams ∧ s.fluid.isSome = b).length := by
  induction h with
  | nil => rfl
  | @cons s p l places h1 _ ih =>
    rw [List.count_cons, List.filter_cons, ih]
    obtain ⟨hi, hm⟩ := h1
    by_cases hp : p = ⟨b, k⟩
    · subst hp
      obtain ⟨st', hst', hn⟩ := hm
      rw [hst] at hst'
      cases hst'
      simp [hn, ← hi]
    · have : ¬ (s.name ∈ st.streams ∧ s.fluid.isSome = b) := by
        rintro ⟨h1, h2⟩
        apply hp
        have := hw.one _ _ _ hm ⟨st, hst, h1⟩
        obtain ⟨pi, pst⟩ := p
        simp only at hi this
        rw [hi, h2, this]
      simp [hp, this]

theorem forall₂_count_none {t : YTrain} (k : Nat) (b : Bool) (hst : t.stages[k]? = none) {l : List YStream}
    {places : List Port} (h : List.Forall₂ (Belongs t) l places) : places.count ⟨b, k⟩ = 0 := by
  rw [List.count_eq_zero]
  intro hm
  induction h with
  | nil => cases hm
  | cons h1 _ ih =>
    rcases List.mem_cons.1 hm with h | h
    · subst h
      obtain ⟨-, st, hst', -⟩ := h1
      rw [hst] at hst'
      cases hst'
    · exact ih h

/-- **Property C92, ports.** The train has exactly one port for each stream, of its kind and at the stage that mentions
it; no stage is dropped. -/
theorem C92_ports {t : YTrain} (hw : WellFormed t) {places : List Port} (hp : List.Forall₂ (Belongs t) t.streams places) :
    ∃ m, t.map = .ok m ∧ m.stages.length = t.stages.length ∧ (ports m.stages).Perm places := by
  refine ⟨_, map_wf hw, ?_, ?_⟩
  · have h : ∀ (ss : List YStage) k, (numbered k ss).length = ss.length := by
      intro ss
      induction ss with
      | nil => intro k; rfl
      | cons s ss ih => intro k; simp [numbered, ih]
    simp [asWritten, h]
  · rw [List.perm_iff_count]
    rintro ⟨b, k⟩
    simp only [ports, List.count_cons, portsFrom_count, Nat.not_lt_zero, if_false, Nat.sub_zero, asWritten_get]
    cases hst : t.stages[k]? with
    | none =>
      rw [forall₂_count_none k b hst hp]
      have : ¬ ((⟨true, 0⟩ : Port) = ⟨b, k⟩) := by
        intro he
        cases he
        obtain ⟨s, -, -, st, h, -⟩ := hw.first
        rw [hst] at h
        cases h
      simp [this]
    | some st =>
      have hmem : st ∈ t.stages := List.mem_iff_getElem?.2 ⟨k, hst⟩
      rw [forall₂_count hw k b st hst hp]
      simp only [Option.map_some, stageOf]
      rw [count_eq _ _ _ (hw.once st hmem), count_eq _ _ _ (hw.once st hmem)]
      cases b with
      | false => simp
      | true =>
        by_cases hk : k = 0
        · subst hk
          have hpos : 0 < (t.streams.filter fun s => s.name ∈ st.streams ∧ s.fluid.isSome = true).length := by
            obtain ⟨s, hs, hf, st', h, hn⟩ := hw.first
            rw [hst] at h
            cases h
            exact List.length_pos_of_mem (List.mem_filter.2 ⟨hs, by simp [hf, hn]⟩)
          simp only [if_true, beq_self_eq_true]
          exact Nat.sub_add_cancel hpos
        · have : ¬ (0 = k) := fun h => hk h.symm
          simp [hk, this]

/-- The order of ports. -/
def le (p q : Port) : Prop := p.stage < q.stage ∨ (p.stage = q.stage ∧ (p.inlet = true → q.inlet = true))

theorem mem_portsFrom (ss : List MStage) : ∀ i, ∀ p ∈ portsFrom i ss, i ≤ p.stage := by
  induction ss with
  | nil => intro i p h; cases h
  | cons s ss ih =>
    intro i p h
    simp only [portsFrom, List.mem_append, List.mem_replicate] at h
    rcases h with (⟨-, rfl⟩ | ⟨-, rfl⟩) | h
    · exact le_rfl
    · exact le_rfl
    · exact (Nat.le_succ i).trans (ih _ _ h)

theorem portsFrom_sorted (ss : List MStage) : ∀ i, (portsFrom i ss).Pairwise le := by
  induction ss with
  | nil => intro i; exact .nil
  | cons s ss ih =>
    intro i
    simp only [portsFrom]
    rw [List.pairwise_append, List.pairwise_append]
    refine ⟨⟨List.pairwise_replicate.2 (.inr (.inr ⟨rfl, by simp⟩)), List.pairwise_replicate.2 (.inr (.inr ⟨rfl, by simp⟩)), ?_⟩,
      ih _, ?_⟩
    · intro p hp q hq
      rw [List.mem_replicate] at hp hq
      rw [hp.2, hq.2]
      exact .inr ⟨rfl, by simp⟩
    · intro p hp q hq
      have hq := mem_portsFrom ss _ _ hq
      have hp : p.stage = i := by
        rw [List.mem_append, List.mem_replicate, List.mem_replicate] at hp
        rcases hp with h | h <;> rw [h.2]
      exact .inl (by omega)

theorem le_antisymm {p q : Port} (h1 : le p q) (h2 : le q p) : p = q := by
  obtain ⟨a, i⟩ := p
  obtain ⟨b, j⟩ := q
  unfold le at h1 h2
  simp only at h1 h2
  have : i = j := by omega
  subst this
  simp at h1 h2
  have : a = b := by cases a <;> cases b <;> simp_all
  rw [this]

/-- **Property C92, order.** Each stream has its own port exactly when the streams are listed in the order of the
stages. -/
theorem C92_order {t : YTrain} (hw : WellFormed t) {places : List Port} (hp : List.Forall₂ (Belongs t) t.streams places) :
    ∃ m, t.map = .ok m ∧ (ports m.stages = places ↔ InOrder places) := by
  obtain ⟨m, hm, -, hperm⟩ := C92_ports hw hp
  refine ⟨m, hm, ?_, ?_⟩
  · rintro rfl
    exact ⟨rfl, portsFrom_sorted _ _⟩
  · rintro ⟨h1, h2⟩
    cases places with
    | nil => cases h1
    | cons p rest =>
      cases h1
      unfold ports at hperm ⊢
      rw [List.perm_cons] at hperm
      rw [hperm.eq_of_pairwise (fun a b _ _ => le_antisymm) (portsFrom_sorted _ _) h2]
      rfl

/-! ## Streams -/

theorem range_filter_cons (p q : Port) (ps : List Port) (b : Nat → Bool) :
    ((List.range (q :: ps).length).filter fun i => b i && decide ((q :: ps)[i]? = some p)) =
      (if b 0 && decide (q = p) then [0] else []) ++
        ((List.range ps.length).filter fun i => b (i + 1) && decide (ps[i]? = some p)).map (· + 1) := by
  rw [List.length_cons, List.range_succ_eq_map, List.filter_cons, List.filter_map]
  simp only [List.getElem?_cons_zero, Option.some.injEq]
  have : (fun i => b i && decide ((q :: ps)[i]? = some p)) ∘ Nat.succ = fun i => b (i + 1) && decide (ps[i]? = some p) := by
    funext i; simp [Function.comp]
  rw [this]
  split <;> simp

theorem takeRates_ok (rates : List ℚ) (is : List Nat) (h : ∀ i ∈ is, i < rates.length) :
    takeRates rates is = .ok (is.filterMap fun i => rates[i]?) := by
  induction is with
  | nil => rfl
  | cons i is ih =>
    have hi := h i (by simp)
    unfold takeRates
    rw [ih fun j hj => h j (List.mem_cons_of_mem _ hj), List.filterMap_cons, List.getElem?_eq_getElem hi]
    rfl

theorem positions_rates (p : Port) (ps : List Port) : ∀ rates : List ℚ, ps.length ≤ rates.length →
    ((List.range ps.length).filter fun i => ps[i]? = some p).filterMap (fun i => rates[i]?) =
      (ps.zip rates).filterMap fun x => if x.1 = p then some x.2 else none := by
  induction ps with
  | nil => intro rates _; rfl
  | cons q ps ih =>
    intro rates h
    cases rates with
    | nil => simp at h
    | cons r rates =>
      have := range_filter_cons p q ps (fun _ => true)
      simp only [Bool.true_and] at this
      rw [this, List.filterMap_append, List.filterMap_map, List.zip_cons_cons, List.filterMap_cons, ← ih rates (by simpa using h)]
      by_cases hq : q = p
      · simp [hq]
      · simp [hq]

theorem takeRates_connected (b : Bool) (k : Nat) (ps : List Port) (rates : List ℚ) (h : ps.length ≤ rates.length) :
    takeRates rates (connected b k ps) =
      .ok ((ps.zip rates).filterMap fun x => if x.1 = ⟨b, k⟩ then some x.2 else none) := by
  unfold connected
  rw [takeRates_ok, positions_rates _ _ _ h]
  intro i hi
  have := List.mem_range.1 (List.mem_filter.1 hi).1
  omega

theorem positions_length (p : Port) (ps : List Port) :
    ((List.range ps.length).filter fun i => ps[i]? = some p).length = ps.count p := by
  induction ps with
  | nil => rfl
  | cons q ps ih =>
    have := range_filter_cons p q ps (fun _ => true)
    simp only [Bool.true_and] at this
    rw [this, List.length_append, List.length_map, ih, List.count_cons]
    by_cases hq : q = p
    · simp [hq]; omega
    · simp [hq]

theorem connected_tail (k : Nat) (q : Port) (ps : List Port) :
    ((connected true k (q :: ps)).filter (· > 0)).length = ps.count ⟨true, k⟩ := by
  unfold connected
  rw [List.filter_filter]
  have := range_filter_cons ⟨true, k⟩ q ps (fun i => decide (i > 0))
  rw [this]
  simp only [gt_iff_lt, lt_self_iff_false, decide_false, Bool.false_and, Bool.false_eq_true, if_false, List.nil_append,
    List.length_map, Nat.succ_pos, decide_true, Bool.true_and]
  exact positions_length _ _

/-- The ingoing ones of some streams. -/
def inflows (z : List (YStream × ℚ)) : List Inflow := z.filterMap fun x => x.1.fluid.map (·, x.2)

theorem fluidStreams_ok (ps : List Port) : ∀ (fpre : List (Option String)) (rpre : List ℚ) (z : List (YStream × ℚ)) rextra,
    fpre.length = rpre.length → List.Forall₂ (fun (x : YStream × ℚ) (p : Port) => p.inlet = x.1.fluid.isSome) z ps →
    fluidStreams (fpre ++ z.map (·.1.fluid)) (rpre ++ z.map (·.2) ++ rextra) fpre.length ps = .ok (inflows z) := by
  induction ps with
  | nil => intro fpre rpre z rextra _ h; cases h; rfl
  | cons p ps ih =>
    intro fpre rpre z rextra hl h
    cases h with
    | @cons x _ z _ hx hz =>
      have h2 := ih (fpre ++ [x.1.fluid]) (rpre ++ [x.2]) z rextra (by simp [hl]) hz
      simp only [List.append_assoc, List.length_append, List.length_cons, List.length_nil, List.nil_append, List.cons_append, Nat.zero_add] at h2
      unfold fluidStreams
      simp only [List.map_cons, List.append_assoc, List.cons_append]
      cases hf : x.1.fluid with
      | none =>
        rw [hf] at hx h2
        rw [if_neg (by simp [hx])]
        unfold inflows
        rw [List.filterMap_cons, hf]
        exact h2
      | some f =>
        rw [hf] at hx h2
        rw [if_pos (by simp [hx])]
        have h3 : (fpre ++ some f :: z.map (·.1.fluid))[fpre.length]? = some (some f) := by simp
        have h4 : (rpre ++ x.2 :: (z.map (·.2) ++ rextra))[fpre.length]? = some x.2 := by rw [hl]; simp
        rw [h3, h4]
        dsimp only
        rw [h2]
        unfold inflows
        rw [List.filterMap_cons, hf]
        rfl

theorem forall₂_append {α β : Type} {R : α → β → Prop} {u v : List β} : ∀ {l : List α}, List.Forall₂ R l (u ++ v) →
    ∃ a b, l = a ++ b ∧ List.Forall₂ R a u ∧ List.Forall₂ R b v := by
  induction u with
  | nil => intro l h; exact ⟨[], l, rfl, .nil, h⟩
  | cons x u ih =>
    intro l h
    cases h with
    | cons h1 h2 =>
      obtain ⟨a, b, rfl, ha, hb⟩ := ih h2
      exact ⟨_ :: a, b, rfl, .cons h1 ha, hb⟩

/-- The ingoing ones of some streams that a stage mentions. -/
def inflowsAt (t : YTrain) (k : Nat) (z : List (YStream × ℚ)) : List Inflow :=
  z.filterMap fun x =>
    match t.stages[k]?, x.1.fluid with
    | some st, some f => if x.1.name ∈ st.streams then some (f, x.2) else none
    | _, _ => none

theorem inflowsAt_here {t : YTrain} {k : Nat} {z : List (YStream × ℚ)} (h : ∀ x ∈ z, Mentions t k x.1.name) :
    inflowsAt t k z = inflows z := by
  unfold inflowsAt inflows
  refine List.filterMap_congr fun x hx => ?_
  obtain ⟨st, hst, hm⟩ := h x hx
  rw [hst]
  cases x.1.fluid with
  | none => rfl
  | some f => simp [hm]

theorem inflowsAt_elsewhere {t : YTrain} {k : Nat} {z : List (YStream × ℚ)} (h : ∀ x ∈ z, ¬ Mentions t k x.1.name) :
    inflowsAt t k z = [] := by
  unfold inflowsAt
  rw [List.filterMap_eq_nil_iff]
  intro x hx
  cases hst : t.stages[k]? with
  | none => rfl
  | some st =>
    cases x.1.fluid with
    | none => rfl
    | some f =>
      have : x.1.name ∉ st.streams := fun hm => h x hx ⟨st, hst, hm⟩
      simp [this]

theorem inflows_none {z : List (YStream × ℚ)} (h : ∀ x ∈ z, x.1.fluid = none) : inflows z = [] := by
  unfold inflows
  rw [List.filterMap_eq_nil_iff]
  intro x hx
  rw [h x hx]
  rfl

theorem inflows_length {z : List (YStream × ℚ)} (h : ∀ x ∈ z, x.1.fluid.isSome = true) : (inflows z).length = z.length := by
  induction z with
  | nil => rfl
  | cons x z ih =>
    obtain ⟨f, hf⟩ := Option.isSome_iff_exists.1 (h x (by simp))
    unfold inflows at ih ⊢
    rw [List.filterMap_cons, hf]
    simp [ih fun y hy => h y (List.mem_cons_of_mem _ hy)]

theorem forall₂_left {α β : Type} {R : α → β → Prop} {l : List α} {r : List β} (h : List.Forall₂ R l r) :
    ∀ x ∈ l, ∃ y ∈ r, R x y := by
  induction h with
  | nil => intro x hx; cases hx
  | cons h1 _ ih =>
    intro x hx
    rcases List.mem_cons.1 hx with rfl | hx
    · exact ⟨_, by simp, h1⟩
    · obtain ⟨y, hy, hr⟩ := ih x hx
      exact ⟨y, List.mem_cons_of_mem _ hy, hr⟩

theorem flows_ok {t : YTrain} (hw : WellFormed t) (ps : List Port) (rates : List ℚ) (ss : List MStage) :
    ∀ (k : Nat) (z : List (YStream × ℚ)), List.Forall₂ (fun (x : YStream × ℚ) p => Belongs t x.1 p) z (portsFrom k ss) →
    (∀ (i : Nat) s, ss[i]? = some s → takeRates rates (connected false (k + i) ps) = .ok (outOf t rates (k + i)) ∧
      (outOf t rates (k + i)).length = s.outs ∧ ((connected true (k + i) ps).filter (· > 0)).length = s.ins) →
    ∃ fs, flows ps rates k (inflows z) ss = .ok fs ∧ fs.length = ss.length ∧
      ∀ i, i < ss.length → fs[i]? = some ⟨outOf t rates (k + i), inflowsAt t (k + i) z⟩ := by
  induction ss with
  | nil => intro k z _ _; exact ⟨[], rfl, rfl, fun i hi => absurd hi (by simp)⟩
  | cons s ss ih =>
    intro k z hz hs
    obtain ⟨ab, c, rfl, hab, hc⟩ := forall₂_append hz
    obtain ⟨a, b, rfl, ha, hb⟩ := forall₂_append hab
    have ha' : ∀ x ∈ a, x.1.fluid = none ∧ Mentions t k x.1.name := by
      intro x hx
      obtain ⟨p, hp, h1, h2⟩ := forall₂_left ha x hx
      rw [(List.mem_replicate.1 hp).2] at h1 h2
      exact ⟨by simpa using h1.symm, h2⟩
    have hb' : ∀ x ∈ b, x.1.fluid.isSome = true ∧ Mentions t k x.1.name := by
      intro x hx
      obtain ⟨p, hp, h1, h2⟩ := forall₂_left hb x hx
      rw [(List.mem_replicate.1 hp).2] at h1 h2
      exact ⟨h1.symm, h2⟩
    have hc' : ∀ x ∈ c, ∃ j, k < j ∧ Mentions t j x.1.name := by
      intro x hx
      obtain ⟨p, hp, -, h2⟩ := forall₂_left hc x hx
      exact ⟨p.stage, mem_portsFrom _ _ _ hp, h2⟩
    have hblen : (inflows b).length = s.ins := by
      rw [inflows_length fun x hx => (hb' x hx).1, hb.length_eq, List.length_replicate]
    have hq : inflows (a ++ b ++ c) = inflows b ++ inflows c := by
      have : inflows (a ++ b ++ c) = inflows a ++ inflows b ++ inflows c := by simp [inflows]
      rw [this, inflows_none fun x hx => (ha' x hx).1, List.nil_append]
    obtain ⟨h1, h2, h3⟩ := hs 0 s rfl
    rw [Nat.add_zero] at h1 h2 h3
    obtain ⟨fs, hfs, hlen, hget⟩ := ih (k + 1) c hc fun i s' hi => by
      have := hs (i + 1) s' hi
      rw [show k + (i + 1) = k + 1 + i by omega] at this
      exact this
    refine ⟨⟨outOf t rates k, inflows b⟩ :: fs, ?_, by simp [hlen], ?_⟩
    · unfold flows
      rw [h1]
      show (if s.outs > 0 ∧ _ then _ else _) = _
      rw [h3, hq, ← hblen, List.take_left, List.drop_left, hblen]
      rw [if_neg (by rintro ⟨-, h⟩; exact h h2), if_neg (by rintro ⟨-, h⟩; exact h rfl), hfs]
      rfl
    · intro i hi
      cases i with
      | zero =>
        have : inflowsAt t k (a ++ b ++ c) = inflowsAt t k a ++ inflowsAt t k b ++ inflowsAt t k c := by simp [inflowsAt]
        rw [Nat.add_zero, this, inflowsAt_here (fun x hx => (ha' x hx).2), inflows_none fun x hx => (ha' x hx).1,
          inflowsAt_here (fun x hx => (hb' x hx).2), inflowsAt_elsewhere (z := c)]
        · simp
        · intro x hx hm
          obtain ⟨j, hj, hm'⟩ := hc' x hx
          have := hw.one _ _ _ hm hm'
          omega
      | succ i =>
        have : inflowsAt t (k + (i + 1)) (a ++ b ++ c) = inflowsAt t (k + 1 + i) c := by
          have e : inflowsAt t (k + (i + 1)) (a ++ b ++ c) =
              inflowsAt t (k + (i + 1)) (a ++ b) ++ inflowsAt t (k + (i + 1)) c := by simp [inflowsAt]
          rw [e, inflowsAt_elsewhere (z := a ++ b), show k + (i + 1) = k + 1 + i by omega]
          · rfl
          · intro x hx hm
            have hk : Mentions t k x.1.name := (List.mem_append.1 hx).elim (fun h => (ha' x h).2) (fun h => (hb' x h).2)
            have := hw.one _ _ _ hm hk
            omega
        rw [this, List.getElem?_cons_succ, hget i (by simpa using hi), show k + (i + 1) = k + 1 + i by omega]

theorem filterMap_places {t : YTrain} (hw : WellFormed t) (k : Nat) {l : List YStream} {places : List Port}
    (h : List.Forall₂ (Belongs t) l places) : ∀ rates : List ℚ,
    ((places.zip rates).filterMap fun x => if x.1 = ⟨false, k⟩ then some x.2 else none) =
      (l.zip rates).filterMap fun x => match t.stages[k]? with
        | some st => if x.1.fluid = none ∧ x.1.name ∈ st.streams then some x.2 else none
        | none => none := by
  induction h with
  | nil => intro rates; simp
  | @cons s p l places h1 _ ih =>
    intro rates
    cases rates with
    | nil => simp
    | cons r rates =>
      rw [List.zip_cons_cons, List.zip_cons_cons, List.filterMap_cons, List.filterMap_cons, ih rates]
      obtain ⟨hi, st, hst, hm⟩ := h1
      obtain ⟨pi, pk⟩ := p
      dsimp only at hi hst ⊢
      by_cases hp : (⟨pi, pk⟩ : Port) = ⟨false, k⟩
      · cases hp
        rw [if_pos rfl, hst]
        have : s.fluid = none := by simpa using hi.symm
        simp [this, hm]
      · rw [if_neg hp]
        cases hst' : t.stages[k]? with
        | none => rfl
        | some st' =>
          have : ¬ (s.fluid = none ∧ s.name ∈ st'.streams) := by
            rintro ⟨h1, h2⟩
            apply hp
            have := hw.one _ _ _ ⟨st, hst, hm⟩ ⟨st', hst', h2⟩
            rw [this, hi, h1]
            rfl
          simp only [if_neg this]

theorem filterMap_length (p : Port) (places : List Port) : ∀ rates : List ℚ, places.length ≤ rates.length →
    ((places.zip rates).filterMap fun x => if x.1 = p then some x.2 else none).length = places.count p := by
  induction places with
  | nil => intro rates _; rfl
  | cons q places ih =>
    intro rates h
    cases rates with
    | nil => simp at h
    | cons r rates =>
      rw [List.zip_cons_cons, List.filterMap_cons, List.count_cons, ← ih rates (by simpa using h)]
      by_cases hq : q = p
      · simp [hq]
      · simp [hq]

theorem forall₂_zip {t : YTrain} {l : List YStream} {places : List Port} (h : List.Forall₂ (Belongs t) l places) :
    ∀ rates : List ℚ, l.length ≤ rates.length →
    List.Forall₂ (fun (x : YStream × ℚ) p => Belongs t x.1 p) (l.zip rates) places := by
  induction h with
  | nil => intro rates _; exact .nil
  | cons h1 _ ih =>
    intro rates hl
    cases rates with
    | nil => simp at hl
    | cons r rates => exact .cons h1 (ih rates (by simpa using hl))

/-- **Property C92, streams.** When the streams are listed in the order of the stages, the first stream enters the train
and every stage is given exactly the streams it mentions: rates of the outgoing ones to its splitter, fluids and rates of
the ingoing ones to its mixer. -/
theorem C92_flow {t : YTrain} (hw : WellFormed t) {places : List Port} (hp : List.Forall₂ (Belongs t) t.streams places)
    (ho : InOrder places) (rates : List ℚ) (hr : t.streams.length ≤ rates.length) :
    ∃ m s f r fs, t.map = .ok m ∧ m.run rates = .ok ((f, r), fs) ∧ t.streams.head? = some s ∧ s.fluid = some f ∧
      rates.head? = some r ∧ fs.length = t.stages.length ∧
      ∀ k, k < t.stages.length → fs[k]? = some ⟨outOf t rates k, into t rates k⟩ := by
  have hports : ports (asWritten t) = places := by
    obtain ⟨m, hm, h⟩ := C92_order hw hp
    rw [map_wf hw] at hm
    cases hm
    exact h.2 ho
  have hlen : (asWritten t).length = t.stages.length := by
    obtain ⟨m, hm, h, -⟩ := C92_ports hw hp
    rw [map_wf hw] at hm
    cases hm
    exact h
  have hz := forall₂_zip hp rates hr
  have hplen : places.length = t.streams.length := hp.length_eq.symm
  obtain ⟨s, l, hsl⟩ : ∃ s l, t.streams = s :: l := by
    obtain ⟨s, hs, -⟩ := hw.first
    cases h : t.streams with
    | nil => rw [h] at hs; cases hs
    | cons s l => exact ⟨s, l, rfl⟩
  obtain ⟨r, rs, hrs⟩ : ∃ r rs, rates = r :: rs := by
    cases rates with
    | nil => rw [hsl] at hr; simp at hr
    | cons r rs => exact ⟨r, rs, rfl⟩
  -- the fluid streams
  have hfs := fluidStreams_ok places [] [] (t.streams.zip rates) (rates.drop t.streams.length) rfl
    (hz.imp fun x p h => h.1)
  have e1 : (t.streams.zip rates).map (·.1.fluid) = t.streams.map (·.fluid) := by
    have := congrArg (List.map fun s : YStream => s.fluid) (List.map_fst_zip hr)
    rwa [List.map_map] at this
  have e2 : (t.streams.zip rates).map (·.2) ++ rates.drop t.streams.length = rates := by
    have : ∀ (l : List YStream) (rs : List ℚ), l.length ≤ rs.length → (l.zip rs).map (·.2) ++ rs.drop l.length = rs := by
      intro l
      induction l with
      | nil => intro rs _; rfl
      | cons a l ih =>
        intro rs h
        cases rs with
        | nil => simp at h
        | cons b rs => simp [ih rs (by simpa using h)]
    exact this _ _ hr
  simp only [List.nil_append, List.length_nil] at hfs
  rw [e1, e2] at hfs
  -- the first stream
  rw [← hports] at hz
  rw [hsl, hrs, List.zip_cons_cons] at hz
  unfold ports at hz
  cases hz with
  | cons h1 h2 =>
    obtain ⟨f, hf⟩ := Option.isSome_iff_exists.1 h1.1.symm
    dsimp only at hf
    -- the stages
    obtain ⟨fs, hflows, hflen, hfget⟩ := flows_ok hw places rates (asWritten t) 0 (l.zip rs) h2 (by
      intro i st hi
      rw [Nat.zero_add]
      have hin : t.stages[i]? ≠ none := by
        intro hn
        rw [asWritten_get, hn] at hi
        cases hi
      have ht := takeRates_connected false i places rates (by omega)
      have hcount := portsFrom_count (asWritten t) 0
      simp only [Nat.not_lt_zero, if_false, Nat.sub_zero] at hcount
      refine ⟨?_, ?_, ?_⟩
      · rw [ht, filterMap_places hw i hp]
        rfl
      · have : outOf t rates i = (places.zip rates).filterMap fun x => if x.1 = ⟨false, i⟩ then some x.2 else none := by
          rw [filterMap_places hw i hp]
          rfl
        rw [this, filterMap_length _ _ _ (by omega), ← hports]
        unfold ports
        rw [List.count_cons, hcount, hi]
        simp
      · rw [← hports]
        unfold ports
        rw [connected_tail, hcount, hi]
        rfl)
    refine ⟨_, s, f, r, fs, map_wf hw, ?_, by rw [hsl]; rfl, hf, by rw [hrs]; rfl, by rw [hflen, hlen], ?_⟩
    · unfold MTrain.run
      dsimp only
      rw [hports, hfs]
      have : inflows (t.streams.zip rates) = (f, r) :: inflows (l.zip rs) := by
        rw [hsl, hrs, List.zip_cons_cons]
        unfold inflows
        rw [List.filterMap_cons, hf]
        rfl
      rw [this]
      show (flows places rates 0 (inflows (l.zip rs)) (asWritten t) >>= fun fs => pure ((f, r), fs)) = _
      rw [hflows]
      rfl
    · intro k hk
      rw [hfget k (by omega), Nat.zero_add]
      unfold into
      rw [hsl, hrs]
      rfl

theorem bind_ok {α β : Type} {x : Except SErr α} {g : α → Except SErr β} {b : β} (h : (x >>= g) = .ok b) :
    ∃ a, x = .ok a ∧ g a = .ok b := by
  cases x with
  | error e => cases h
  | ok a => exact ⟨a, rfl, h⟩

theorem fluidStreams_length (rates : List ℚ) (ps : List Port) : ∀ (fpre fl : List (Option String)) (ss : List Inflow),
    fluidStreams (fpre ++ fl) rates fpre.length ps = .ok ss →
    ss.length = ((ps.zip fl).filter fun x => x.1.inlet && x.2.isSome).length := by
  induction ps with
  | nil => intro fpre fl ss h; cases h; rfl
  | cons p ps ih =>
    intro fpre fl ss h
    unfold fluidStreams at h
    cases fl with
    | nil =>

      by_cases hp : p.inlet = true
      · rw [if_pos hp] at h
        have : (fpre ++ [])[fpre.length]? = (none : Option (Option String)) := by simp
        rw [this] at h
        cases h
      · rw [if_neg hp] at h
        have key : ∀ (ps : List Port) (i : Nat) (ss : List Inflow), fpre.length ≤ i →
            fluidStreams fpre rates i ps = .ok ss → ss = [] := by
          intro ps
          induction ps with
          | nil => intro i ss _ h; cases h; rfl
          | cons q ps ihq =>
            intro i ss hi h
            unfold fluidStreams at h
            by_cases hq : q.inlet = true
            · rw [if_pos hq, List.getElem?_eq_none hi] at h
              cases h
            · rw [if_neg hq] at h
              exact ihq _ _ (by omega) h
        rw [List.append_nil] at h
        rw [key ps _ ss (Nat.le_succ _) h]
        rfl
    | cons f fl =>
      have ih := fun ss h => ih (fpre ++ [f]) fl ss (by simpa using h)
      by_cases hp : p.inlet = true
      · rw [if_pos hp] at h
        have : (fpre ++ f :: fl)[fpre.length]? = some f := by simp
        rw [this] at h
        cases f with
        | none =>
          dsimp only at h
          rw [ih ss h]
          simp
        | some f =>
          dsimp only at h
          cases hr : rates[fpre.length]? with
          | none => rw [hr] at h; cases h
          | some r =>
            rw [hr] at h
            obtain ⟨rest, hrest, h⟩ := bind_ok h
            cases h
            rw [List.length_cons, ih rest hrest]
            simp [hp]
      · rw [if_neg hp] at h
        rw [ih ss h]
        simp [hp]

theorem flows_enough (ps : List Port) (rates : List ℚ) (ss : List MStage) : ∀ (k : Nat) (queue : List Inflow) fs,
    (∀ (i : Nat) s, ss[i]? = some s → ((connected true (k + i) ps).filter (· > 0)).length = s.ins) →
    flows ps rates k queue ss = .ok fs → (ss.map (·.ins)).sum ≤ queue.length := by
  induction ss with
  | nil => intro k queue fs _ _; simp
  | cons s ss ih =>
    intro k queue fs hs h
    unfold flows at h
    obtain ⟨out, -, h⟩ := bind_ok h
    have hn := hs 0 s rfl
    rw [Nat.add_zero] at hn
    dsimp only at h
    rw [hn] at h
    by_cases h1 : s.outs > 0 ∧ out.length ≠ s.outs
    · rw [if_pos h1] at h; cases h
    · rw [if_neg h1] at h
      by_cases h2 : s.ins > 0 ∧ (queue.take s.ins).length ≠ s.ins
      · rw [if_pos h2] at h; cases h
      · rw [if_neg h2] at h
        obtain ⟨rest, hrest, -⟩ := bind_ok h
        have := ih (k + 1) _ rest (fun i s' hi => by
          have := hs (i + 1) s' hi
          rwa [show k + (i + 1) = k + 1 + i by omega] at this) hrest
        rw [List.length_drop] at this
        rw [List.length_take] at h2
        simp only [List.map_cons, List.sum_cons]
        omega

theorem inlets_portsFrom (ss : List MStage) : ∀ k, ((portsFrom k ss).filter (·.inlet)).length = (ss.map (·.ins)).sum := by
  induction ss with
  | nil => intro k; rfl
  | cons s ss ih =>
    intro k
    simp [portsFrom, List.filter_append, ih]

theorem filter_all {α : Type} {l : List α} {p q : α → Bool} (h : (l.filter p).length ≤ (l.filter fun x => p x && q x).length) :
    ∀ x ∈ l, p x = true → q x = true := by
  have e : (l.filter fun x => p x && q x) = (l.filter p).filter q := by
    rw [List.filter_filter]
    congr 1
    funext x
    exact Bool.and_comm _ _
  rw [e] at h
  have := List.length_filter_eq_length_iff.1 (Nat.le_antisymm (List.length_filter_le q (l.filter p)) h)
  intro x hx hp
  exact this x (List.mem_filter.2 ⟨hx, hp⟩)

theorem zip_filter_fst {α β : Type} (p : α → Bool) (l : List α) : ∀ r : List β, l.length ≤ r.length →
    ((l.zip r).filter fun x => p x.1).length = (l.filter p).length := by
  induction l with
  | nil => intro r _; rfl
  | cons a l ih =>
    intro r h
    cases r with
    | nil => simp at h
    | cons b r =>
      rw [List.zip_cons_cons, List.filter_cons, List.filter_cons]
      have := ih r (by simpa using h)
      split <;> simp [this]

theorem zip_filter_snd {α β : Type} (p : β → Bool) (l : List α) : ∀ r : List β, r.length ≤ l.length →
    ((l.zip r).filter fun x => p x.2).length = (r.filter p).length := by
  induction l with
  | nil => intro r h; cases r with
    | nil => rfl
    | cons => simp at h
  | cons a l ih =>
    intro r h
    cases r with
    | nil => rfl
    | cons b r =>
      rw [List.zip_cons_cons, List.filter_cons, List.filter_cons]
      have := ih r (by simpa using h)
      split <;> simp [this]

theorem places_inlets {t : YTrain} {l : List YStream} {places : List Port} (h : List.Forall₂ (Belongs t) l places) :
    (places.filter (·.inlet)).length = ((l.map (·.fluid)).filter (·.isSome)).length := by
  induction h with
  | nil => rfl
  | @cons s p l places h1 _ ih =>
    rw [List.map_cons, List.filter_cons, List.filter_cons, h1.1]
    split <;> simp [ih]

/-- **Property C92, wrong order noticed.** Whatever the order in which streams are listed, a train that can be run has an
inlet where the list has an ingoing stream and an outlet where it has an outgoing stream; other orders are refused when
the train is run. -/
theorem C92_noticed {t : YTrain} (hw : WellFormed t) {places : List Port} (hp : List.Forall₂ (Belongs t) t.streams places)
    {m : MTrain} (hm : t.map = .ok m) {rates : List ℚ} {res : Inflow × List Flow} (h : m.run rates = .ok res) (i : Nat)
    {p : Port} {s : YStream} (hi : (ports m.stages)[i]? = some p) (hs : t.streams[i]? = some s) :
    p.inlet = s.fluid.isSome := by
  obtain ⟨m', hm', -, hperm⟩ := C92_ports hw hp
  rw [hm] at hm'
  cases hm'
  rw [map_wf hw] at hm
  cases hm
  dsimp only at hperm hi
  have hlen : (ports (asWritten t)).length = (t.streams.map (·.fluid)).length := by
    rw [hperm.length_eq, List.length_map, hp.length_eq]
  unfold MTrain.run at h
  obtain ⟨ss, hss, h⟩ := bind_ok h
  have h1 := fluidStreams_length rates (ports (asWritten t)) [] (t.streams.map fun s : YStream => s.fluid) ss hss
  have h2 : ((ports (asWritten t)).filter (·.inlet)).length ≤ ss.length := by
    cases ss with
    | nil => cases h
    | cons inlet queue =>
      dsimp only at h
      obtain ⟨fs, hfs, -⟩ := bind_ok h
      have := flows_enough _ _ _ 0 queue fs (by
        intro j st hj
        unfold ports
        rw [Nat.zero_add, connected_tail, portsFrom_count]
        simp only [Nat.not_lt_zero, if_false, Nat.sub_zero]
        rw [hj]
        rfl) hfs
      unfold ports
      rw [List.filter_cons]
      simp only [if_true, List.length_cons, inlets_portsFrom]
      omega
  have h3 : ∀ x ∈ (ports (asWritten t)).zip (t.streams.map (·.fluid)), x.1.inlet = true → x.2.isSome = true := by
    apply filter_all (p := fun x : Port × Option String => x.1.inlet) (q := fun x => x.2.isSome)
    rw [zip_filter_fst (fun p : Port => p.inlet) _ _ hlen.le, ← h1]
    exact h2
  have h4 : ∀ x ∈ (ports (asWritten t)).zip (t.streams.map (·.fluid)), x.2.isSome = true → x.1.inlet = true := by
    apply filter_all (p := fun x : Port × Option String => x.2.isSome) (q := fun x => x.1.inlet)
    rw [zip_filter_snd (fun f : Option String => f.isSome) _ _ hlen.ge, ← places_inlets hp,
      ← (hperm.filter (·.inlet)).length_eq]
    have e : (fun x : Port × Option String => x.2.isSome && x.1.inlet) = fun x => x.1.inlet && x.2.isSome := by
      funext x; exact Bool.and_comm _ _
    rw [e, ← h1]
    exact h2
  have hmem : (p, s.fluid) ∈ (ports (asWritten t)).zip (t.streams.map (·.fluid)) := by
    rw [List.mem_iff_getElem?]
    refine ⟨i, ?_⟩
    rw [List.getElem?_zip_eq_some]
    exact ⟨hi, by rw [List.getElem?_map, hs]; rfl⟩
  have a := h3 _ hmem
  have b := h4 _ hmem
  dsimp only at a b
  cases hpi : p.inlet <;> cases hsf : s.fluid.isSome <;> simp_all

/-- **Property C92, interstage pressure.** The interstage control pressure belongs to the stage that has it in the
file. -/
theorem C92_interstage {t : YTrain} (hw : WellFormed t) (hv : t.validate = .ok ()) {m : MTrain} (hm : t.map = .ok m)
    (k : Nat) : m.interstage = some k ↔ ∃ st, t.stages[k]? = some st ∧ st.control = true := by
  rw [map_wf hw] at hm
  cases hm
  dsimp only
  have hone : (t.stages.filter (·.control)).length ≤ 1 := by
    unfold YTrain.validate at hv
    by_contra hc
    rw [if_pos (by omega)] at hv
    cases hv
  have key : ∀ (ss : List YStage) (j i : Nat), (ss.filter (·.control)).length ≤ 1 →
      (interstageOf i ((numbered j ss).map (stageOf t.streams)) = some k ↔
        ∃ n st, k = i + n ∧ ss[n]? = some st ∧ st.control = true) := by
    intro ss
    induction ss with
    | nil => intro j i _; simp [numbered, interstageOf]
    | cons s ss ih =>
      intro j i h
      simp only [numbered, List.map_cons, interstageOf]
      have hc : (stageOf t.streams (j, s)).control = s.control := rfl
      rw [hc]
      by_cases hs : s.control = true
      · rw [if_pos hs]
        constructor
        · intro e
          cases e
          exact ⟨0, s, rfl, rfl, hs⟩
        · rintro ⟨n, st, rfl, hn, hst⟩
          cases n with
          | zero => rfl
          | succ n =>
            exfalso
            rw [List.filter_cons, if_pos hs] at h
            have : 0 < (ss.filter (·.control)).length :=
              List.length_pos_of_mem (List.mem_filter.2 ⟨List.mem_iff_getElem?.2 ⟨n, hn⟩, hst⟩)
            simp only [List.length_cons] at h
            omega
      · rw [if_neg hs, ih (j + 1) (i + 1) (by rwa [List.filter_cons, if_neg hs] at h)]
        constructor
        · rintro ⟨n, st, rfl, hn, hst⟩
          exact ⟨n + 1, st, by omega, hn, hst⟩
        · rintro ⟨n, st, rfl, hn, hst⟩
          cases n with
          | zero => cases hn; exact absurd hst hs
          | succ n => exact ⟨n, st, by omega, hn, hst⟩
  rw [asWritten, key t.stages 0 0 hone]
  constructor
  · rintro ⟨n, st, rfl, hn, hst⟩
    exact ⟨st, by rwa [Nat.zero_add], hst⟩
  · rintro ⟨st, hst, hc⟩
    exact ⟨k, st, by omega, hst, hc⟩

/-- **Property C92, evaluation.** The ports are those with which the train is evaluated. -/
theorem C92_train {σ : Type} (stages : List (Train.StageP σ)) (ms : List MStage)
    (h : List.Forall₂ (fun s m => s.outs = m.outs ∧ s.ins = m.ins) stages ms) : Train.ports stages = ports ms := by
  have key : ∀ i, Train.portsFrom i stages = portsFrom i ms := by
    induction h with
    | nil => intro i; rfl
    | cons h1 _ ih => intro i; rw [Train.portsFrom, portsFrom, h1.1, h1.2, ih]
  unfold Train.ports ports
  rw [key]

/-! ## Deviations exhibited -/

/-- The dict keeps what it has. -/
def Keeps (d d' : List (String × Nat)) : Prop := ∀ r j, d.lookup r = some j → d'.lookup r = some j

theorem keeps_setdefault (d : List (String × Nat)) (r : String) (k : Nat) : Keeps d (setdefault d r k).1 := by
  intro r' j h
  rw [lookup_setdefault]
  by_cases hr : r' = r
  · subst hr; simp [h]
  · rw [if_neg hr, h]

theorem keeps_noteStage (names : List String) (k : Nat) (rs : List String) : ∀ d, Keeps d (noteStage names k d rs) := by
  induction rs with
  | nil => intro d r j h; exact h
  | cons r rs ih =>
    intro d r' j h
    refine ih _ r' j ?_
    by_cases hr : r ∈ names
    · rw [if_pos hr]; exact keeps_setdefault d r k r' j h
    · rw [if_neg hr]; exact h

theorem noteStage_has (names : List String) (k : Nat) (rs : List String) {r : String} (hr : r ∈ rs) (hn : r ∈ names) :
    ∀ d, (∀ j, d.lookup r = some j → j ≤ k) → ∃ j, (noteStage names k d rs).lookup r = some j ∧ j ≤ k := by
  induction rs with
  | nil => cases hr
  | cons a rs ih =>
    intro d hd
    unfold noteStage
    by_cases ha : r = a
    · subst ha
      rw [if_pos hn]
      have : ∃ j, (setdefault d r k).1.lookup r = some j ∧ j ≤ k := by
        rw [lookup_setdefault, if_pos rfl]
        cases hl : d.lookup r with
        | none => exact ⟨k, rfl, le_rfl⟩
        | some w => exact ⟨w, rfl, hd w hl⟩
      obtain ⟨j, hj, hjk⟩ := this
      exact ⟨j, keeps_noteStage names k rs _ r j hj, hjk⟩
    · refine ih ((List.mem_cons.1 hr).resolve_left ha) _ ?_
      intro j hj
      by_cases han : a ∈ names
      · rw [if_pos han, lookup_setdefault, if_neg ha] at hj
        exact hd j hj
      · rw [if_neg han] at hj
        exact hd j hj

theorem keeps_noteStages (names : List String) (ss : List YStage) : ∀ k d, Keeps d (noteStages names k d ss) := by
  induction ss with
  | nil => intro k d r j h; exact h
  | cons s ss ih =>
    intro k d r j h
    exact ih _ _ r j (keeps_noteStage names k s.streams d r j h)

theorem noteStage_le (names : List String) (k : Nat) (rs : List String) (r : String) : ∀ d,
    (∀ j, d.lookup r = some j → j ≤ k) → ∀ j, (noteStage names k d rs).lookup r = some j → j ≤ k := by
  induction rs with
  | nil => intro d hd j h; exact hd j h
  | cons a rs ih =>
    intro d hd j h
    refine ih _ ?_ j h
    intro j' hj'
    by_cases han : a ∈ names
    · rw [if_pos han, lookup_setdefault] at hj'
      by_cases ha : r = a
      · subst ha
        rw [if_pos rfl] at hj'
        cases hl : d.lookup r with
        | none => rw [hl] at hj'; cases hj'; exact le_rfl
        | some w => rw [hl] at hj'; cases hj'; exact hd _ hl
      · rw [if_neg ha] at hj'
        exact hd j' hj'
    · rw [if_neg han] at hj'
      exact hd j' hj'

theorem noteStages_has (names : List String) {r : String} (hn : r ∈ names) (ss : List YStage) : ∀ (k : Nat) d (n : Nat) st,
    (∀ j, d.lookup r = some j → j ≤ k) → ss[n]? = some st → r ∈ st.streams →
    ∃ j, (noteStages names k d ss).lookup r = some j ∧ j ≤ k + n := by
  induction ss with
  | nil => intro k d n st _ h _; cases h
  | cons s ss ih =>
    intro k d n st hd hst hr
    cases n with
    | zero =>
      cases hst
      obtain ⟨j, hj, hjk⟩ := noteStage_has names k s.streams hr hn d hd
      exact ⟨j, keeps_noteStages names ss _ _ r j hj, hjk⟩
    | succ n =>
      obtain ⟨j, hj, hjk⟩ := ih (k + 1) (noteStage names k d s.streams) n st
        (fun j hj => (noteStage_le names k s.streams r d hd j hj).trans (Nat.le_succ k)) hst hr
      exact ⟨j, hj, by omega⟩

theorem taken_keeps (names : List String) (k : Nat) (rs : List String) : ∀ d, Keeps d (taken names k d rs).2 := by
  induction rs with
  | nil => intro d r j h; exact h
  | cons a rs ih =>
    intro d r j h
    unfold taken
    split
    · split
      · exact keeps_setdefault d a k r j h
      · exact ih _ r j (keeps_setdefault d a k r j h)
    · exact ih _ r j h

theorem taken_true (names : List String) (k : Nat) (rs : List String) {r : String} (hr : r ∈ rs) {j : Nat} (hj : j ≠ k) :
    ∀ d, d.lookup r = some j → (taken names k d rs).1 = true := by
  induction rs with
  | nil => cases hr
  | cons a rs ih =>
    intro d hd
    unfold taken
    by_cases ha : r = a
    · subst ha
      rw [if_pos (.inr (by rw [hd]; rfl)), if_pos (by rw [setdefault_value, hd]; exact hj)]
    · have hr' := (List.mem_cons.1 hr).resolve_left ha
      split
      · split
        · rfl
        · exact ih hr' _ (keeps_setdefault d a k r j hd)
      · exact ih hr' _ hd

theorem kept_dropped (names : List String) {r : String} {j : Nat} (ss : List YStage) : ∀ (k : Nat) d,
    d.lookup r = some j → ∀ e ∈ kept names k d ss, r ∈ e.2.streams → e.1 = j := by
  induction ss with
  | nil => intro k d _ e he; cases he
  | cons s ss ih =>
    intro k d hd e he hr
    have ih := ih (k + 1) _ (taken_keeps names k s.streams d r j hd)
    unfold kept at he
    split at he
    · exact ih e he hr
    · rename_i hf
      rcases List.mem_cons.1 he with rfl | he
      · by_contra hne
        exact hf (taken_true names k s.streams hr (fun h => hne h.symm) d hd)
      · exact ih e he hr

/-- **Deviation.** A stage that mentions a stream an earlier stage mentions is silently left out of the train. -/
theorem C92_dropped {t : YTrain} {m : MTrain} (hm : t.map = .ok m) {s : YStream} (hs : s ∈ t.streams) {j k : Nat}
    (hjk : j < k) (hj : Mentions t j s.name) (hk : Mentions t k s.name) : ∀ st ∈ m.stages, st.number ≠ k := by
  unfold YTrain.map at hm
  dsimp only at hm
  split at hm
  swap
  · cases hm
  cases hm
  intro st hst
  obtain ⟨e, he, rfl⟩ := List.mem_map.1 hst
  have hn : s.name ∈ t.streams.map (·.name) := List.mem_map_of_mem hs
  obtain ⟨sj, hsj, hrj⟩ := hj
  obtain ⟨sk, hsk, hrk⟩ := hk
  obtain ⟨i, hi, hij⟩ := noteStages_has _ hn t.stages 0 [] j sj (by intro j h; cases h) hsj hrj
  have hnum : ∀ (ss : List YStage) (k : Nat) d, ∀ e ∈ kept (t.streams.map (·.name)) k d ss,
      ∃ n, e.1 = k + n ∧ ss[n]? = some e.2 := by
    intro ss
    induction ss with
    | nil => intro k d e he; cases he
    | cons a ss ih =>
      intro k d e he
      unfold kept at he
      split at he
      · obtain ⟨n, h1, h2⟩ := ih _ _ e he
        exact ⟨n + 1, by omega, h2⟩
      · rcases List.mem_cons.1 he with rfl | he
        · exact ⟨0, rfl, rfl⟩
        · obtain ⟨n, h1, h2⟩ := ih _ _ e he
          exact ⟨n + 1, by omega, h2⟩
  intro hk
  change e.1 = k at hk
  obtain ⟨n, h1, h2⟩ := hnum _ _ _ e he
  rw [Nat.zero_add] at h1
  rw [h1] at hk
  rw [hk, hsk] at h2
  have := kept_dropped _ t.stages 0 _ hi e he (by cases h2; exact hrk)
  omega

/-- A train with two stages and an intermediate inlet and outlet, as in the documentation. -/
def train : YTrain where
  streams := [⟨"in", some "rich"⟩, ⟨"out", none⟩, ⟨"extra", some "lean"⟩]
  stages := [⟨["in"], false⟩, ⟨["out", "extra"], true⟩]

/-- The same train with its streams listed in another order. -/
def shuffled : YTrain := { train with streams := [⟨"extra", some "lean"⟩, ⟨"out", none⟩, ⟨"in", some "rich"⟩] }

/-- **Deviation.** Streams listed in another order than the stages mention them are silently exchanged: the train enters
with the fluid and the rate of the other stream. -/
theorem C92_exchanged : shuffled.map = .ok ⟨asWritten train, [some "lean", none, some "rich"], some 1⟩ ∧
    ∃ m, shuffled.map = .ok m ∧ m.run [30, 10, 100] = .ok (("lean", 30), [⟨[], []⟩, ⟨[10], [("rich", 100)]⟩]) := by
  refine ⟨by decide +kernel, _, rfl, by decide +kernel⟩

/-- **Deviation.** A stream no stage mentions shifts the rates of the streams after it, and rates left over are
ignored. -/
theorem C92_shifted : ∃ t : YTrain, ∃ m, t.map = .ok m ∧ t.streams.map (·.name) = ["in", "forgotten", "extra"] ∧
    Mentions t 1 "extra" ∧ m.run [100, 5, 30] = .ok (("rich", 100), [⟨[], []⟩, ⟨[], [("other", 5)]⟩]) := by
  refine ⟨⟨[⟨"in", some "rich"⟩, ⟨"forgotten", some "other"⟩, ⟨"extra", some "lean"⟩],
    [⟨["in"], false⟩, ⟨["extra"], false⟩]⟩, _, rfl, rfl, ⟨_, rfl, by simp⟩, by decide +kernel⟩

/-! ## Examples -/

theorem train_wf : WellFormed train where
  names := by decide
  once := by decide
  one := by
    have h : ∀ i name, Mentions train i name → (i = 0 ∧ name = "in") ∨ (i = 1 ∧ (name = "out" ∨ name = "extra")) := by
      rintro i name ⟨st, hst, hn⟩
      match i, hst with
      | 0, hst => cases hst; left; simpa using hn
      | 1, hst => cases hst; right; simpa using hn
    intro i j name h1 h2
    rcases h _ _ h1 with ⟨rfl, rfl⟩ | ⟨rfl, rfl | rfl⟩ <;> rcases h _ _ h2 with ⟨rfl, h⟩ | ⟨rfl, h | h⟩ <;>
      first | rfl | (exfalso; revert h; decide)
  all := by
    intro s hs
    simp only [train, List.mem_cons, List.not_mem_nil, or_false] at hs
    rcases hs with rfl | rfl | rfl
    · exact ⟨0, _, rfl, by simp⟩
    · exact ⟨1, _, rfl, by simp⟩
    · exact ⟨1, _, rfl, by simp⟩
  first := ⟨⟨"in", some "rich"⟩, by simp [train], rfl, _, rfl, by simp⟩

theorem train_belongs : List.Forall₂ (Belongs train) train.streams [⟨true, 0⟩, ⟨false, 1⟩, ⟨true, 1⟩] :=
  .cons ⟨rfl, _, rfl, by simp⟩ (.cons ⟨rfl, _, rfl, by simp⟩ (.cons ⟨rfl, _, rfl, by simp⟩ .nil))

example : InOrder [⟨true, 0⟩, ⟨false, 1⟩, ⟨true, 1⟩] := ⟨rfl, by simp⟩
example : ¬ InOrder [⟨true, 1⟩, ⟨false, 1⟩, ⟨true, 0⟩] := by
  rintro ⟨h, -⟩
  revert h
  decide
example : (train.map >>= fun m => m.run [100, 10, 30]) = .ok (("rich", 100), [⟨[], []⟩, ⟨[10], [("lean", 30)]⟩]) := by decide +kernel
example : outOf train [100, 10, 30] 1 = [10] ∧ into train [100, 10, 30] 1 = [("lean", 30)] ∧ into train [100, 10, 30] 0 = [] := by
  decide +kernel
/-- An ingoing stream listed before the outgoing stream of the same stage is noticed. -/
example : (({ train with streams := [⟨"in", some "rich"⟩, ⟨"extra", some "lean"⟩, ⟨"out", none⟩] } : YTrain).map >>= fun m =>
    m.run [100, 30, 10]) = .error .illegalState := by decide +kernel
/-- The second stage mentions the stream of the first one and is gone. -/
example : (⟨[⟨"in", some "rich"⟩], [⟨["in"], false⟩, ⟨["in"], false⟩, ⟨[], false⟩]⟩ : YTrain).map =
    .ok ⟨[⟨0, 0, 0, false⟩, ⟨2, 0, 0, false⟩], [some "rich"], none⟩ := by decide +kernel
example : (train.map >>= fun m => m.run [100, 10]) = .error .indexError := by decide +kernel

end Verif.C92
