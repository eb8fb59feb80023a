import Verif.Model.Assembly
import Verif.Model.Sections
import Verif.Props.C75

/-!
# C76: sections are put together as the solvers need them
-/

namespace Verif.C76
open Verif.Time Verif.Process Verif.Section Verif.Assembly
open Verif.C73 (handlers Closed slotHandler)
open Verif.C74 (Distinct ChokeLast Ordered EndsWithCompressor)

/-! ## Specification -/

/-- The unit of the input at a place; none for what the assembly adds. -/
def original : Slot Nat → Option ProcUnit
  | .fixed u => some u
  | .comp c => some (.compressor c)
  | _ => none

/-- Where a loop may begin: at the start, behind the choke, behind another loop, or behind a mixer or splitter of the
input. -/
def Edge (a : List (Slot Nat)) : Prop :=
  ∀ u, a.getLast? = some u → (∃ l, u = .split l) ∨ (∃ v, u = .fixed v ∧ isBoundary v = true) ∨ ∃ h, u = .choke h

/-- The `i`-th compressor is in the `i`-th loop: the loop's mixer comes first, then units that are neither compressors
nor mixers or splitters of the input, then the compressor and immediately the loop's splitter. The loop occurs nowhere
else. It begins as early as it can. -/
def InLoop (slots : List (Slot Nat)) (loops : List Nat) (i : Nat) (pre : List (Slot Nat)) (c : Compressor) : Prop :=
  ∃ l a b d, loops[i]? = some l ∧ slots = a ++ .mix l :: (b ++ .comp c :: .split l :: d) ∧ pre = a ++ .mix l :: b ∧
    (∀ u ∈ b, ∃ v, u = .fixed v ∧ isBoundary v = false ∧ isCompressor v = false) ∧ Edge a ∧
    ∀ u ∈ a ++ d, slotHandler u ≠ some l

/-- Every compressor is in the loop of its number. -/
def Paired (slots : List (Slot Nat)) (loops : List Nat) : Prop :=
  ∀ i pre c, before slots i = some (pre, c) → InLoop slots loops i pre c

/-- The handlers an assembled section brings along. -/
def ids (a : Assembled) : List Nat := a.loops ++ a.choke.toList

/-! ## Lemmas -/

theorem before_nil_of_count (a : List (Slot Nat)) (i : Nat) : before a i = none ↔ a.countP isComp ≤ i := by
  induction a generalizing i with
  | nil => simp [before]
  | cons u a ih =>
    cases u with
    | comp c =>
      cases i with
      | zero => simp [before, isComp]
      | succ i => rw [List.countP_cons_of_pos (by rfl)]; simp [before, ih]
    | fixed u => simp [before, isComp, ih]
    | mix u => simp [before, isComp, ih]
    | split u => simp [before, isComp, ih]
    | choke u => simp [before, isComp, ih]

theorem before_append_left (a b : List (Slot Nat)) (i : Nat) (r : List (Slot Nat) × Compressor)
    (h : before a i = some r) : before (a ++ b) i = some r := by
  induction a generalizing i r with
  | nil => simp [before] at h
  | cons u a ih =>
    have gen : ∀ i r, ((before a i).map fun r => (u :: r.1, r.2)) = some r →
        ((before (a ++ b) i).map fun r => (u :: r.1, r.2)) = some r := by
      intro i r h
      rw [Option.map_eq_some_iff] at h ⊢
      obtain ⟨q, h1, h2⟩ := h
      exact ⟨q, ih _ _ h1, h2⟩
    rw [List.cons_append]
    cases u with
    | comp c =>
      cases i with
      | zero => simpa [before] using h
      | succ i => exact gen i r h
    | fixed u => simp only [before] at h ⊢; exact gen i r h
    | mix u => simp only [before] at h ⊢; exact gen i r h
    | split u => simp only [before] at h ⊢; exact gen i r h
    | choke u => simp only [before] at h ⊢; exact gen i r h

theorem before_append_right (a b : List (Slot Nat)) (i : Nat) :
    before (a ++ b) (a.countP isComp + i) = (before b i).map fun r => (a ++ r.1, r.2) := by
  induction a with
  | nil => simp
  | cons u a ih =>
    have gen : ((before (a ++ b) (a.countP isComp + i)).map fun r => (u :: r.1, r.2)) =
        (before b i).map fun r => (u :: a ++ r.1, r.2) := by
      rw [ih, Option.map_map]; rfl
    rw [List.cons_append]
    cases u with
    | comp c =>
      rw [List.countP_cons_of_pos (by rfl)]
      have : List.countP isComp a + 1 + i = (List.countP isComp a + i) + 1 := by omega
      rw [this]
      exact gen
    | fixed u => rw [List.countP_cons_of_neg (by simp [isComp])]; simp only [before]; exact gen
    | mix u => rw [List.countP_cons_of_neg (by simp [isComp])]; simp only [before]; exact gen
    | split u => rw [List.countP_cons_of_neg (by simp [isComp])]; simp only [before]; exact gen
    | choke u => rw [List.countP_cons_of_neg (by simp [isComp])]; simp only [before]; exact gen

/-- The compressors of two parts. -/
theorem before_append {a b : List (Slot Nat)} {i : Nat} {pre : List (Slot Nat)} {c : Compressor}
    (h : before (a ++ b) i = some (pre, c)) :
    before a i = some (pre, c) ∨ ∃ j q, i = a.countP isComp + j ∧ before b j = some (q, c) ∧ pre = a ++ q := by
  cases ha : before a i with
  | some r => rw [before_append_left a b i r ha] at h; exact .inl h
  | none =>
    rw [before_nil_of_count] at ha
    obtain ⟨j, rfl⟩ := Nat.exists_eq_add_of_le ha
    rw [before_append_right, Option.map_eq_some_iff] at h
    obtain ⟨⟨q, c'⟩, h1, h2⟩ := h
    cases h2
    exact .inr ⟨j, q, rfl, h1, rfl⟩

theorem slotOf_plain {u : ProcUnit} (h : isCompressor u = false) : slotOf u = .fixed u := by
  cases u <;> first | rfl | cases h

theorem original_slotOf (u : ProcUnit) : original (slotOf u) = some u := by cases u <;> rfl

theorem original_map (us : List ProcUnit) : (us.map slotOf).filterMap original = us := by
  induction us with
  | nil => rfl
  | cons u us ih => rw [List.map_cons, List.filterMap_cons, original_slotOf, ih]

theorem handler_slotOf (u : ProcUnit) : slotHandler (slotOf u) = none := by cases u <;> rfl

theorem isComp_slotOf (u : ProcUnit) : isComp (slotOf u) = isCompressor u := by cases u <;> rfl

theorem count_map (us : List ProcUnit) : (us.map slotOf).countP isComp = us.countP isCompressor := by
  rw [List.countP_map]
  congr 1
  funext u
  exact isComp_slotOf u

theorem count_eq_zero {us : List ProcUnit} (h : ∀ u ∈ us, isCompressor u = false) : us.countP isCompressor = 0 := by
  rw [List.countP_eq_zero]
  intro u hu
  simp [h u hu]

theorem Paired.append_plain {s e : List (Slot Nat)} {loops : List Nat} (h : Paired s loops)
    (hc : e.countP isComp = 0) (hk : ∀ u ∈ e, ∀ k ∈ loops, slotHandler u ≠ some k) : Paired (s ++ e) loops := by
  intro i pre c hb
  rcases before_append hb with hb | ⟨j, q, -, hb, -⟩
  · obtain ⟨l, a, b, d, h1, h2, h3, h4, h5, h6⟩ := h i pre c hb
    refine ⟨l, a, b, d ++ e, h1, by rw [h2]; simp, h3, h4, h5, ?_⟩
    intro u hu
    rw [← List.append_assoc, List.mem_append] at hu
    rcases hu with hu | hu
    · exact h6 u hu
    · exact hk u hu l (List.mem_of_getElem? h1)
  · have := (before_nil_of_count e j).mpr (by omega)
    rw [this] at hb
    cases hb

theorem Paired.append_group {s : List (Slot Nat)} {loops : List Nat} (h : Paired s loops)
    (hlen : s.countP isComp = loops.length) (he : Edge s) {l : Nat} (hl : l ∉ loops)
    (hs : ∀ u ∈ s, slotHandler u ≠ some l) {us : List ProcUnit} (c : Compressor)
    (hus : ∀ u ∈ us, isBoundary u = false ∧ isCompressor u = false) :
    Paired (s ++ loopAround l (us ++ [.compressor c])) (loops ++ [l]) := by
  have hshape : loopAround l (us ++ [.compressor c]) = .mix l :: (us.map slotOf ++ [.comp c, .split l]) := by
    simp [loopAround, slotOf]
  have hfix : ∀ u ∈ us.map slotOf, ∃ v, u = .fixed v ∧ isBoundary v = false ∧ isCompressor v = false := by
    intro u hu
    obtain ⟨v, hv, rfl⟩ := List.mem_map.mp hu
    exact ⟨v, slotOf_plain (hus v hv).2, hus v hv⟩
  intro i pre c' hb
  rw [hshape] at hb ⊢
  rcases before_append hb with hb | ⟨j, q, hi, hb, hpre⟩
  · obtain ⟨l', a, b, d, h1, h2, h3, h4, h5, h6⟩ := h i pre c' hb
    have hne : l ≠ l' := fun e => hl (e ▸ List.mem_of_getElem? h1)
    refine ⟨l', a, b, d ++ (.mix l :: (us.map slotOf ++ [.comp c, .split l])), ?_, by rw [h2]; simp, h3, h4, h5, ?_⟩
    · rw [List.getElem?_append_left (by
        have := List.getElem?_eq_some_iff.mp h1
        exact this.1)]
      exact h1
    · intro u hu
      rw [← List.append_assoc, List.mem_append] at hu
      rcases hu with hu | hu
      · exact h6 u hu
      · simp only [List.mem_cons, List.mem_append, List.not_mem_nil, or_false] at hu
        rcases hu with rfl | hu | rfl | rfl
        · simpa [slotHandler] using hne
        · obtain ⟨v, -, rfl⟩ := List.mem_map.mp hu
          rw [handler_slotOf]; simp
        · simp [slotHandler]
        · simpa [slotHandler] using hne
  · have e0 : (Slot.mix l :: us.map slotOf).countP isComp = 0 := by
      rw [List.countP_cons_of_neg (by simp [isComp]), count_map]
      exact count_eq_zero fun u hu => (hus u hu).2
    have hb' : before ((Slot.mix l :: us.map slotOf) ++ [.comp c, .split l]) j = some (q, c') := hb
    rcases before_append hb' with hb' | ⟨k, q', hj, hb', hq⟩
    · rw [(before_nil_of_count _ j).mpr (by omega)] at hb'
      cases hb'
    · cases k with
      | succ k => simp [before] at hb'
      | zero =>
        simp only [before, Option.some.injEq, Prod.mk.injEq] at hb'
        obtain ⟨rfl, rfl⟩ := hb'
        have hi' : i = loops.length := by omega
        refine ⟨l, s, us.map slotOf, [], by rw [hi']; simp, by simp, by rw [hpre, hq]; simp, hfix, he, ?_⟩
        simpa using hs

/-- What is true while the units are being collected. -/
structure Inv (n0 : Nat) (seen : List ProcUnit) (st : State) : Prop where
  le : n0 ≤ st.next
  erase : st.solver.filterMap original ++ st.pending = seen
  loops : st.loops = List.range' n0 (st.next - n0)
  pending : ∀ u ∈ st.pending, isBoundary u = false ∧ isCompressor u = false
  count : st.solver.countP isComp = st.loops.length
  used : ∀ u ∈ st.solver, ∀ k, slotHandler u = some k → k ∈ st.loops
  notChoke : ∀ u ∈ st.solver, ∀ h, u ≠ .choke h
  paired : Paired st.solver st.loops
  edge : Edge st.solver
  number : st.loops.length = seen.countP isCompressor

theorem Inv.step {n0 : Nat} {seen : List ProcUnit} {st : State} (h : Inv n0 seen st) (u : ProcUnit) :
    Inv n0 (seen ++ [u]) (step st u) := by
  have hp0 : (st.pending.map slotOf).countP isComp = 0 := by
    rw [count_map]; exact count_eq_zero fun v hv => (h.pending v hv).2
  unfold Assembly.step
  split
  · rename_i hb
    have hcu : isCompressor u = false := by cases u <;> first | rfl | cases hb
    have hext : ∀ v ∈ st.pending.map slotOf ++ [slotOf u], slotHandler v = none := by
      intro v hv
      rw [List.mem_append, List.mem_singleton] at hv
      rcases hv with hv | rfl
      · obtain ⟨w, -, rfl⟩ := List.mem_map.mp hv
        exact handler_slotOf w
      · exact handler_slotOf u
    have hc0 : (st.pending.map slotOf ++ [slotOf u]).countP isComp = 0 := by
      rw [List.countP_append, hp0, List.countP_singleton, isComp_slotOf, hcu]; rfl
    refine ⟨h.le, ?_, h.loops, by simp, ?_, ?_, ?_, ?_, ?_, by rw [List.countP_append, ← h.number]; simp [hcu]⟩
    · simp only [List.filterMap_append, original_map, List.append_nil]
      rw [h.erase]
      simp [original_slotOf]
    · dsimp only
      rw [List.append_assoc, List.countP_append, hc0, h.count]; rfl
    · intro v hv k hk
      dsimp only at hv
      rw [List.append_assoc, List.mem_append] at hv
      rcases hv with hv | hv
      · exact h.used v hv k hk
      · rw [hext v hv] at hk; cases hk
    · intro v hv k hk
      dsimp only at hv
      rw [List.append_assoc, List.mem_append] at hv
      rcases hv with hv | hv
      · exact h.notChoke v hv k hk
      · have := hext v hv
        rw [hk] at this; cases this
    · dsimp only
      rw [List.append_assoc]
      exact h.paired.append_plain hc0 fun v hv k _ => by rw [hext v hv]; simp
    · intro v hv
      dsimp only at hv
      rw [List.getLast?_append] at hv
      simp only [List.getLast?_singleton, Option.some_or, Option.some.injEq] at hv
      exact .inr (.inl ⟨u, by rw [← hv, slotOf_plain hcu], hb⟩)
  · split
    · rename_i hb hc
      cases u with
      | compressor c =>
        have hfresh : st.next ∉ st.loops := by
          rw [h.loops, List.mem_range'_1]; have := h.le; omega
        refine ⟨by have := h.le; dsimp only; omega, ?_, ?_, by simp, ?_, ?_, ?_, ?_, ?_,
          by rw [List.countP_append, ← h.number]; simp [isCompressor]⟩
        · dsimp only
          have : (loopAround st.next (st.pending ++ [.compressor c])).filterMap original = st.pending ++ [.compressor c] := by
            unfold loopAround
            rw [List.filterMap_cons]
            simp only [original]
            rw [List.filterMap_append, original_map]
            simp [original]
          rw [List.filterMap_append, this, List.append_nil, ← List.append_assoc, h.erase]
        · dsimp only
          have e : st.next + 1 - n0 = (st.next - n0) + 1 := by have := h.le; omega
          rw [e, List.range'_concat, h.loops]
          congr 2
          have := h.le; omega
        · dsimp only
          rw [List.countP_append, h.count, List.length_append]
          congr 1
          unfold loopAround
          rw [List.countP_cons_of_neg (by simp [isComp]), List.countP_append, count_map, List.countP_append,
            count_eq_zero fun v hv => (h.pending v hv).2]
          rfl
        · intro v hv k hk
          dsimp only at hv ⊢
          rw [List.mem_append] at hv ⊢
          rcases hv with hv | hv
          · exact .inl (h.used v hv k hk)
          · right
            simp only [loopAround, List.mem_cons, List.mem_append, List.not_mem_nil, or_false] at hv
            rcases hv with rfl | hv | rfl
            · simp only [slotHandler, Option.some.injEq] at hk; simp [hk]
            · obtain ⟨w, -, rfl⟩ := List.mem_map.mp hv
              rw [handler_slotOf] at hk; cases hk
            · simp only [slotHandler, Option.some.injEq] at hk; simp [hk]
        · intro v hv k hk
          dsimp only at hv
          rw [List.mem_append] at hv
          rcases hv with hv | hv
          · exact h.notChoke v hv k hk
          · subst hk
            simp only [loopAround, List.mem_cons, List.mem_append, List.not_mem_nil, or_false, reduceCtorEq, false_or] at hv
            obtain ⟨w, -, hw⟩ := List.mem_map.mp hv
            have := handler_slotOf w
            rw [hw] at this; cases this
        · exact h.paired.append_group h.count h.edge hfresh (fun v hv hk => hfresh (h.used v hv _ hk)) c h.pending
        · intro v hv
          dsimp only at hv
          rw [List.getLast?_append] at hv
          unfold loopAround at hv
          rw [← List.cons_append, List.getLast?_append] at hv
          simp only [List.getLast?_singleton, Option.some_or, Option.some.injEq] at hv
          exact .inl ⟨_, hv.symm⟩
      | _ => cases hc
    · rename_i hb hc
      refine ⟨h.le, by dsimp only; rw [← List.append_assoc, h.erase], h.loops, ?_, h.count, h.used, h.notChoke, h.paired,
        h.edge, by rw [List.countP_append, ← h.number]; simp [hc]⟩
      intro v hv
      rw [List.mem_append, List.mem_singleton] at hv
      rcases hv with hv | rfl
      · exact h.pending v hv
      · exact ⟨by simpa using hb, by simpa using hc⟩

theorem Inv.fold {n0 : Nat} (us : List ProcUnit) : ∀ {seen : List ProcUnit} {st : State}, Inv n0 seen st →
    Inv n0 (seen ++ us) (us.foldl Assembly.step st) := by
  induction us with
  | nil => intro seen st h; simpa using h
  | cons u us ih =>
    intro seen st h
    have := ih (h.step u)
    rwa [List.append_assoc] at this

theorem Inv.start (n0 : Nat) : Inv n0 [] ⟨[], [], [], n0⟩ :=
  ⟨le_refl _, rfl, by simp, by simp, rfl, by simp, by simp, fun i pre c h => by simp [before] at h,
    fun u h => by simp at h, rfl⟩

theorem Inv.all (n0 : Nat) (us : List ProcUnit) : Inv n0 us (us.foldl Assembly.step ⟨[], [], [], n0⟩) := by
  simpa using (Inv.start n0).fold us

/-- The part without the choke. -/
structure Looped (n0 : Nat) (units : List ProcUnit) (r : List (Slot Nat) × List Nat × Nat) : Prop where
  le : n0 ≤ r.2.2
  erase : r.1.filterMap original = units
  loops : r.2.1 = List.range' n0 (r.2.2 - n0)
  used : ∀ u ∈ r.1, ∀ k, slotHandler u = some k → k ∈ r.2.1
  notChoke : ∀ u ∈ r.1, ∀ h, u ≠ .choke h

theorem withLoops_looped (n0 : Nat) (anti : AntiSurge) (units : List ProcUnit) : Looped n0 units (withLoops n0 anti units) := by
  unfold withLoops
  split
  · refine ⟨by dsimp only; omega, ?_, by simp, ?_, ?_⟩
    · unfold loopAround
      rw [List.filterMap_cons]
      simp only [original]
      rw [List.filterMap_append, original_map]
      simp [original]
    · intro u hu k hk
      simp only [loopAround, List.mem_cons, List.mem_append, List.not_mem_nil, or_false] at hu
      rcases hu with rfl | hu | rfl
      · simp only [slotHandler, Option.some.injEq] at hk; simp [hk]
      · obtain ⟨w, -, rfl⟩ := List.mem_map.mp hu
        rw [handler_slotOf] at hk; cases hk
      · simp only [slotHandler, Option.some.injEq] at hk; simp [hk]
    · intro u hu h hh
      subst hh
      simp only [loopAround, List.mem_cons, List.mem_append, List.not_mem_nil, or_false, reduceCtorEq, false_or] at hu
      obtain ⟨w, -, hw⟩ := List.mem_map.mp hu
      have := handler_slotOf w
      rw [hw] at this; cases this
  · have h := Inv.all n0 units
    dsimp only
    generalize units.foldl Assembly.step ⟨[], [], [], n0⟩ = st at h ⊢
    refine ⟨h.le, ?_, h.loops, ?_, ?_⟩
    · rw [List.filterMap_append, original_map, h.erase]
    · intro u hu k hk
      rw [List.mem_append] at hu
      rcases hu with hu | hu
      · exact h.used u hu k hk
      · obtain ⟨w, -, rfl⟩ := List.mem_map.mp hu
        rw [handler_slotOf] at hk; cases hk
    · intro u hu k hk
      rw [List.mem_append] at hu
      rcases hu with hu | hu
      · exact h.notChoke u hu k hk
      · obtain ⟨w, -, rfl⟩ := List.mem_map.mp hu
        have := handler_slotOf w
        rw [hk] at this; cases this

theorem withLoops_paired (n0 : Nat) {anti : AntiSurge} (ha : anti ≠ .common) (units : List ProcUnit) :
    Paired (withLoops n0 anti units).1 (withLoops n0 anti units).2.1 ∧
    (withLoops n0 anti units).2.1.length = units.countP isCompressor := by
  have h := Inv.all n0 units
  unfold withLoops
  rw [if_neg ha]
  dsimp only
  generalize units.foldl Assembly.step ⟨[], [], [], n0⟩ = st at h ⊢
  have hp0 : (st.pending.map slotOf).countP isComp = 0 := by
    rw [count_map]; exact count_eq_zero fun v hv => (h.pending v hv).2
  refine ⟨h.paired.append_plain hp0 ?_, ?_⟩
  · intro u hu k _
    obtain ⟨w, -, rfl⟩ := List.mem_map.mp hu
    rw [handler_slotOf]; simp
  · exact h.number

theorem range_facts {n0 n1 : Nat} (h : n0 ≤ n1) : (List.range' n0 (n1 - n0)).Nodup ∧
    ∀ k, k ∈ List.range' n0 (n1 - n0) ↔ n0 ≤ k ∧ k < n1 := by
  refine ⟨List.nodup_range', fun k => ?_⟩
  rw [List.mem_range'_1]
  omega

theorem Paired.cons_choke {s : List (Slot Nat)} {loops : List Nat} (h : Paired s loops) {k : Nat} (hk : k ∉ loops) :
    Paired (.choke k :: s) loops := by
  intro i pre c hb
  have hb' : before ([Slot.choke k] ++ s) i = some (pre, c) := hb
  rcases before_append hb' with hb' | ⟨j, q, hi, hb', hpre⟩
  · simp [before] at hb'
  · have hij : i = j := by simpa [isComp] using hi
    subst hij
    obtain ⟨l, a, b, d, h1, h2, h3, h4, h5, h6⟩ := h i q c hb'
    refine ⟨l, .choke k :: a, b, d, h1, by rw [h2]; rfl, by rw [hpre, h3]; rfl, h4, ?_, ?_⟩
    · intro u hu
      cases a with
      | nil => simp only [List.getLast?_singleton, Option.some.injEq] at hu; exact .inr (.inr ⟨k, hu.symm⟩)
      | cons x a => rw [List.getLast?_cons_cons] at hu; exact h5 u hu
    · intro u hu
      rw [List.cons_append, List.mem_cons] at hu
      rcases hu with rfl | hu
      · intro e
        simp only [slotHandler, Option.some.injEq] at e
        exact hk (e ▸ List.mem_of_getElem? h1)
      · exact h6 u hu

/-! ## Assembly -/

/-- **Assembly of a section.** Nothing of the input is lost, added or reordered; all loops and chokes are new, different
from each other and the section's own; there is a choke exactly for the two kinds of pressure control by choke, at the
start or at the end, and no other. With a common anti-surge valve one loop is around all units. Otherwise every
compressor has a loop of its own. -/
theorem C76_assembled (next : Nat) (anti : AntiSurge) (pc : PControl) (units : List ProcUnit) (a : Assembled) (n : Nat)
    (h : assemble next anti pc units = (a, n)) :
    a.slots.filterMap original = units ∧
    (ids a).Nodup ∧ (∀ k, k ∈ ids a ↔ next ≤ k ∧ k < n) ∧
    (∀ l, .mix l ∈ a.slots ∨ .split l ∈ a.slots → l ∈ a.loops) ∧ (∀ k, .choke k ∈ a.slots → a.choke = some k) ∧
    (pc = .upstreamChoke → ∃ c us, a.choke = some c ∧ a.slots = .choke c :: us ∧ ∀ u ∈ us, ∀ k, u ≠ .choke k) ∧
    (pc = .downstreamChoke → ∃ c us, a.choke = some c ∧ a.slots = us ++ [.choke c] ∧ ∀ u ∈ us, ∀ k, u ≠ .choke k) ∧
    (pc ≠ .upstreamChoke → pc ≠ .downstreamChoke → a.choke = none ∧ ∀ u ∈ a.slots, ∀ k, u ≠ .choke k) ∧
    (anti = .common → ∃ l p b q, a.loops = [l] ∧ a.slots = p ++ .mix l :: (b ++ .split l :: q) ∧
      (∀ u ∈ p ++ q, ∃ k, u = .choke k) ∧ b.map original = units.map some) ∧
    (anti ≠ .common → Paired a.slots a.loops ∧ a.loops.length = units.countP isCompressor) := by
  have hw := withLoops_looped next anti units
  have hp := fun ha => withLoops_paired next (anti := anti) ha units
  have hcom : anti = .common → (withLoops next anti units) = (loopAround next units, [next], next + 1) := by
    intro e; unfold withLoops; rw [if_pos e]
  unfold assemble at h
  generalize withLoops next anti units = r at hw hp hcom h
  obtain ⟨sl, lo, m⟩ := r
  obtain ⟨hle, herase, hloops, hused, hnc⟩ := hw
  dsimp only at hle herase hloops hused hnc hp hcom h
  obtain ⟨hnd, hrange⟩ := range_facts hle
  rw [← hloops] at hnd hrange
  have hm : m ∉ lo := by rw [hrange]; omega
  have hmap : ∀ us : List ProcUnit, (us.map slotOf).map original = us.map some := by
    intro us
    rw [List.map_map]
    exact List.map_congr_left fun u _ => original_slotOf u
  have hplain : (ids (⟨sl, lo, none⟩ : Assembled)).Nodup ∧ (∀ k, k ∈ ids (⟨sl, lo, none⟩ : Assembled) ↔ next ≤ k ∧ k < m) := by
    refine ⟨by simpa [ids] using hnd, fun k => ?_⟩
    simp only [ids, Option.toList, List.append_nil]
    exact hrange k
  have hchoke : ∀ s : List (Slot Nat), (ids (⟨s, lo, some m⟩ : Assembled)).Nodup ∧
      (∀ k, k ∈ ids (⟨s, lo, some m⟩ : Assembled) ↔ next ≤ k ∧ k < m + 1) := by
    intro s
    constructor
    · simp only [ids, Option.toList]
      rw [List.nodup_append]
      refine ⟨hnd, by simp, ?_⟩
      intro x hx y hy e
      rw [List.mem_singleton] at hy
      subst hy; subst e
      exact hm hx
    · intro k
      simp only [ids, Option.toList, List.mem_append, List.mem_singleton]
      rw [hrange]; omega
  have usual : ∀ (pc' : PControl), pc' ≠ .upstreamChoke → pc' ≠ .downstreamChoke → pc = pc' →
      ((⟨sl, lo, none⟩, m) : Assembled × Nat) = (a, n) → _ := fun pc' h1 h2 h3 h4 =>
    show a.slots.filterMap original = units ∧
      (ids a).Nodup ∧ (∀ k, k ∈ ids a ↔ next ≤ k ∧ k < n) ∧
      (∀ l, .mix l ∈ a.slots ∨ .split l ∈ a.slots → l ∈ a.loops) ∧ (∀ k, .choke k ∈ a.slots → a.choke = some k) ∧
      (pc = .upstreamChoke → ∃ c us, a.choke = some c ∧ a.slots = .choke c :: us ∧ ∀ u ∈ us, ∀ k, u ≠ .choke k) ∧
      (pc = .downstreamChoke → ∃ c us, a.choke = some c ∧ a.slots = us ++ [.choke c] ∧ ∀ u ∈ us, ∀ k, u ≠ .choke k) ∧
      (pc ≠ .upstreamChoke → pc ≠ .downstreamChoke → a.choke = none ∧ ∀ u ∈ a.slots, ∀ k, u ≠ .choke k) ∧
      (anti = .common → ∃ l p b q, a.loops = [l] ∧ a.slots = p ++ .mix l :: (b ++ .split l :: q) ∧
        (∀ u ∈ p ++ q, ∃ k, u = .choke k) ∧ b.map original = units.map some) ∧
      (anti ≠ .common → Paired a.slots a.loops ∧ a.loops.length = units.countP isCompressor) by
    cases h4
    refine ⟨herase, hplain.1, hplain.2, ?_, fun k hk => absurd rfl (hnc _ hk k), fun e => absurd (h3 ▸ e) h1, fun e => absurd (h3 ▸ e) h2, fun _ _ => ⟨rfl, hnc⟩,
      ?_, hp⟩
    · exact fun l hl => hl.elim (fun h => hused _ h l rfl) (fun h => hused _ h l rfl)
    · intro e
      have := hcom e
      cases this
      exact ⟨next, [], units.map slotOf, [], rfl, by simp [loopAround], by simp, hmap units⟩
  cases pc with
  | commonAsv => exact usual .commonAsv (by simp) (by simp) rfl h
  | asvRate => exact usual .asvRate (by simp) (by simp) rfl h
  | asvPressure => exact usual .asvPressure (by simp) (by simp) rfl h
  | upstreamChoke =>
    cases h
    refine ⟨by rw [List.filterMap_cons]; exact herase, (hchoke _).1, (hchoke _).2, ?_, ?_, ?_, by simp, by simp, ?_, ?_⟩
    · intro l hl
      simp only [List.mem_cons, reduceCtorEq, false_or] at hl
      exact hl.elim (fun h => hused _ h l rfl) (fun h => hused _ h l rfl)
    · intro k hk
      simp only [List.mem_cons, Slot.choke.injEq] at hk
      rcases hk with hk | hk
      · rw [hk]
      · exact absurd rfl (hnc _ hk k)
    · exact fun _ => ⟨m, sl, rfl, rfl, hnc⟩
    · intro e
      have := hcom e
      cases this
      exact ⟨next, [.choke (next + 1)], units.map slotOf, [], rfl, by simp [loopAround], by simp, hmap units⟩
    · intro e
      exact ⟨(hp e).1.cons_choke hm, (hp e).2⟩
  | downstreamChoke =>
    cases h
    refine ⟨by rw [List.filterMap_append]; simpa [List.filterMap_cons, original] using herase, (hchoke _).1, (hchoke _).2, ?_,
      ?_, by simp, ?_, by simp, ?_, ?_⟩
    · intro l hl
      simp only [List.mem_append, List.mem_singleton, reduceCtorEq, or_false] at hl
      exact hl.elim (fun h => hused _ h l rfl) (fun h => hused _ h l rfl)
    · intro k hk
      simp only [List.mem_append, List.mem_singleton, Slot.choke.injEq] at hk
      rcases hk with hk | hk
      · exact absurd rfl (hnc _ hk k)
      · rw [hk]
    · exact fun _ => ⟨m, sl, rfl, rfl, hnc⟩
    · intro e
      have := hcom e
      cases this
      exact ⟨next, [], units.map slotOf, [.choke (next + 1)], rfl, by simp [loopAround], by simp, hmap units⟩
    · intro e
      refine ⟨(hp e).1.append_plain (by simp [isComp]) ?_, (hp e).2⟩
      intro u hu k hk e'
      rw [List.mem_singleton] at hu
      subst hu
      simp only [slotHandler, Option.some.injEq] at e'
      exact hm (e' ▸ hk)

theorem before_lt {s : List (Slot Nat)} : ∀ {i j : Nat} {p q : List (Slot Nat)} {c d : Compressor},
    before s i = some (p, c) → before s j = some (q, d) → i < j → ∃ m, q = p ++ .comp c :: m := by
  induction s with
  | nil => intro i j p q c d h; simp [before] at h
  | cons u s ih =>
    intro i j p q c d hi hj hij
    have gen : ∀ i j, i < j → ((before s i).map fun r => (u :: r.1, r.2)) = some (p, c) →
        ((before s j).map fun r => (u :: r.1, r.2)) = some (q, d) → ∃ m, q = p ++ .comp c :: m := by
      intro i j hij h1 h2
      rw [Option.map_eq_some_iff] at h1 h2
      obtain ⟨⟨p', c'⟩, g1, e1⟩ := h1
      obtain ⟨⟨q', d'⟩, g2, e2⟩ := h2
      cases e1
      cases e2
      obtain ⟨m, hm⟩ := ih g1 g2 hij
      exact ⟨m, by rw [hm]; rfl⟩
    cases u with
    | comp c' =>
      cases j with
      | zero => omega
      | succ j =>
        cases i with
        | zero =>
          simp only [before, Option.some.injEq, Prod.mk.injEq] at hi hj
          obtain ⟨rfl, rfl⟩ := hi
          rw [Option.map_eq_some_iff] at hj
          obtain ⟨⟨q', d'⟩, -, e2⟩ := hj
          cases e2
          exact ⟨q', rfl⟩
        | succ i => exact gen i j (by omega) hi hj
    | fixed u => exact gen i j hij (by simpa only [before] using hi) (by simpa only [before] using hj)
    | mix u => exact gen i j hij (by simpa only [before] using hi) (by simpa only [before] using hj)
    | split u => exact gen i j hij (by simpa only [before] using hi) (by simpa only [before] using hj)
    | choke u => exact gen i j hij (by simpa only [before] using hi) (by simpa only [before] using hj)

/-- Loops of later compressors do not reach in front of a compressor. -/
theorem Paired.early {slots : List (Slot Nat)} {loops : List Nat} (h : Paired slots loops)
    (hcount : slots.countP isComp = loops.length) {i : Nat} {pre : List (Slot Nat)} {c : Compressor}
    (hb : before slots i = some (pre, c)) {u : Slot Nat} (hu : u ∈ pre) {k : Nat} (hk : slotHandler u = some k)
    (hm : k ∈ loops) : k ∈ loops.take (i + 1) := by
  obtain ⟨j, hj, hjk⟩ := List.getElem_of_mem hm
  by_cases hij : j < i + 1
  · rw [List.mem_take_iff_getElem]
    exact ⟨j, by omega, hjk⟩
  · exfalso
    cases hb' : before slots j with
    | none => rw [before_nil_of_count] at hb'; omega
    | some r =>
      obtain ⟨q, d⟩ := r
      obtain ⟨m, hq⟩ := before_lt hb hb' (by omega)
      obtain ⟨l, a, b, e, h1, h2, h3, h4, h5, h6⟩ := h j q d hb'
      have hl : l = k := by rw [List.getElem?_eq_getElem hj, hjk, Option.some.injEq] at h1; exact h1.symm
      subst hl
      rw [hq] at h3
      rcases List.append_eq_append_iff.mp h3 with ⟨x, hx, -⟩ | ⟨x, hx, hx'⟩
      · exact h6 u (List.mem_append_left _ (by rw [hx]; exact List.mem_append_left _ hu)) hk
      · cases x with
        | nil => simp at hx'
        | cons y x =>
          rw [List.cons_append, List.cons.injEq] at hx'
          obtain ⟨v, hv, -⟩ := h4 (.comp c) (by rw [hx'.2]; simp)
          cases hv

theorem withLoops_count (n0 : Nat) (anti : AntiSurge) (units : List ProcUnit) :
    (withLoops n0 anti units).1.countP isComp = units.countP isCompressor := by
  unfold withLoops
  split
  · dsimp only [loopAround]
    rw [List.countP_cons_of_neg (by simp [isComp]), List.countP_append, count_map]
    simp [isComp]
  · have h := Inv.all n0 units
    dsimp only
    generalize units.foldl Assembly.step ⟨[], [], [], n0⟩ = st at h ⊢
    rw [List.countP_append, count_map, count_eq_zero fun v hv => (h.pending v hv).2, h.count, h.number]
    rfl

theorem assemble_count {next : Nat} {anti : AntiSurge} {pc : PControl} {units : List ProcUnit} {a : Assembled} {n : Nat}
    (h : assemble next anti pc units = (a, n)) : a.compressors = units.countP isCompressor := by
  rw [← withLoops_count next anti units]
  unfold assemble at h
  cases pc <;> cases h <;> simp [Assembled.compressors, isComp]

theorem validate_ok {pc : PControl} {anti : AntiSurge} {units : List ProcUnit} (h : validate pc anti units = .ok ()) :
    0 < units.countP isCompressor ∧ (requiredAntiSurge pc = none ∨ requiredAntiSurge pc = some anti) ∧ anti ≠ .none ∧
      (anti = .common → ∀ u ∈ units, isBoundary u = false) := by
  unfold validate at h
  split at h
  · cases h
  · rename_i h1
    split at h
    · cases h
    · rename_i h2
      split at h
      · cases h
      · rename_i h3
        split at h
        · cases h
        · split at h
          · cases h
          · rename_i h5
            have hany : units.any isCompressor = true := by simpa using h1
            refine ⟨?_, ?_, ?_, ?_⟩
            · rw [List.countP_pos_iff]
              rw [List.any_eq_true] at hany
              exact hany
            · unfold compatible at h2
              cases hr : requiredAntiSurge pc with
              | none => exact .inl rfl
              | some r =>
                rw [hr] at h2
                right
                simp only [Bool.not_eq_true', Bool.not_eq_false, decide_eq_true_eq] at h2
                rw [h2]
            · intro e
              rw [hany, e] at h3
              simp at h3
            · intro e u hu
              rw [e] at h5
              simp only [decide_true, Bool.true_and, Bool.not_eq_true, List.any_eq_false] at h5
              simpa using h5 u hu

/-- **Validated sections can be solved,** except with a common anti-surge valve, pressure control by a choke and more than one
compressor: that is accepted, and refused when the solver is put together. -/
theorem C76_accepts {next : Nat} {anti : AntiSurge} {pc : PControl} {units : List ProcUnit} {a : Assembled} {n : Nat}
    (hv : validate pc anti units = .ok ()) (h : assemble next anti pc units = (a, n)) (shaft : Nat) (bound : Boundary) :
    (∃ sec, assembleSolver a pc shaft bound = .ok sec) ↔
      anti = .individual ∨ pc = .commonAsv ∨ units.countP isCompressor = 1 := by
  obtain ⟨h1, h2, h3, -⟩ := validate_ok hv
  obtain ⟨-, -, -, -, -, g1, g2, g3, g4, g5⟩ := C76_assembled next anti pc units a n h
  have hcnt := assemble_count h
  have key : a.loops.length = a.compressors ↔ anti = .individual ∨ units.countP isCompressor = 1 := by
    rw [hcnt]
    cases anti with
    | none => exact absurd rfl h3
    | individual => simp [(g5 (by simp)).2]
    | common =>
      obtain ⟨l, p, b, q, hl, -⟩ := g4 rfl
      rw [hl]
      simp only [List.length_singleton, reduceCtorEq, false_or]
      exact eq_comm
  cases pc with
  | commonAsv =>
    refine ⟨fun _ => .inr (.inl rfl), fun _ => ?_⟩
    rcases h2 with h2 | h2
    · cases h2
    · have ha : anti = .common := by simpa [requiredAntiSurge] using h2.symm
      obtain ⟨l, p, b, q, hl, -⟩ := g4 ha
      refine ⟨⟨a.slots, a.loops, shaft, bound, .commonAsv l⟩, ?_⟩
      unfold assembleSolver
      rw [hl]
      dsimp only
      rw [if_neg (by omega)]
  | asvRate =>
    simp only [reduceCtorEq, false_or]
    rw [← key]
    simp only [assembleSolver, paired]
    by_cases hlen : a.loops.length = a.compressors <;> simp [hlen]
  | asvPressure =>
    simp only [reduceCtorEq, false_or]
    rw [← key]
    simp only [assembleSolver, paired]
    by_cases hlen : a.loops.length = a.compressors <;> simp [hlen]
  | downstreamChoke =>
    obtain ⟨c, us, hc, -⟩ := g2 rfl
    simp only [reduceCtorEq, false_or]
    rw [← key]
    simp only [assembleSolver, paired, hc]
    by_cases hlen : a.loops.length = a.compressors <;> simp [hlen]
  | upstreamChoke =>
    obtain ⟨c, us, hc, -⟩ := g1 rfl
    simp only [reduceCtorEq, false_or]
    rw [← key]
    simp only [assembleSolver, paired, hc]
    by_cases hlen : a.loops.length = a.compressors <;> simp [hlen]

/-- What the solver of an assembled section is. -/
theorem solver_parts {a : Assembled} {pc : PControl} {shaft : Nat} {bound : Boundary} {sec : Sec Nat}
    (h : assembleSolver a pc shaft bound = .ok sec) :
    sec.slots = a.slots ∧ sec.loops = a.loops ∧ sec.shaft = shaft ∧ sec.bound = bound ∧
    (pc = .commonAsv → ∃ l ls, a.loops = l :: ls ∧ sec.control = .commonAsv l) ∧
    (pc = .asvRate → sec.control = .asvRate) ∧ (pc = .asvPressure → sec.control = .asvPressure) ∧
    (pc = .downstreamChoke → ∃ c, a.choke = some c ∧ sec.control = .downstreamChoke c) ∧
    (pc = .upstreamChoke → ∃ c, a.choke = some c ∧ sec.control = .upstreamChoke c) ∧
    (pc ≠ .commonAsv → a.loops.length = a.compressors) := by
  cases pc with
  | commonAsv =>
    unfold assembleSolver at h
    dsimp only at h
    split at h
    · cases h
    · rename_i l ls hl
      split at h
      · cases h
      · cases h
        refine ⟨rfl, rfl, rfl, rfl, fun _ => ⟨l, ls, hl, rfl⟩, by simp, by simp, by simp, by simp, by simp⟩
  | asvRate =>
    simp only [assembleSolver, paired] at h
    split at h
    · cases h
    · rename_i hl
      cases h
      exact ⟨rfl, rfl, rfl, rfl, by simp, by simp, by simp, by simp, by simp, fun _ => not_not.mp hl⟩
  | asvPressure =>
    simp only [assembleSolver, paired] at h
    split at h
    · cases h
    · rename_i hl
      cases h
      exact ⟨rfl, rfl, rfl, rfl, by simp, by simp, by simp, by simp, by simp, fun _ => not_not.mp hl⟩
  | downstreamChoke =>
    simp only [assembleSolver, paired] at h
    by_cases hl : a.loops.length = a.compressors
    · rw [if_neg (not_not.mpr hl)] at h
      cases hc : a.choke with
      | none => rw [hc] at h; cases h
      | some c =>
        rw [hc] at h
        cases h
        exact ⟨rfl, rfl, rfl, rfl, by simp, by simp, by simp, fun _ => ⟨c, rfl, rfl⟩, by simp, fun _ => hl⟩
    · rw [if_pos hl] at h; cases h
  | upstreamChoke =>
    simp only [assembleSolver, paired] at h
    by_cases hl : a.loops.length = a.compressors
    · rw [if_neg (not_not.mpr hl)] at h
      cases hc : a.choke with
      | none => rw [hc] at h; cases h
      | some c =>
        rw [hc] at h
        cases h
        exact ⟨rfl, rfl, rfl, rfl, by simp, by simp, by simp, by simp, fun _ => ⟨c, rfl, rfl⟩, fun _ => hl⟩
    · rw [if_pos hl] at h; cases h

/-- The handlers of the solver of a validated section are the shaft and those of the assembled section. -/
theorem solver_handlers {next : Nat} {anti : AntiSurge} {pc : PControl} {units : List ProcUnit} {a : Assembled} {n : Nat}
    (hv : validate pc anti units = .ok ()) (h : assemble next anti pc units = (a, n)) {shaft : Nat} {bound : Boundary}
    {sec : Sec Nat} (hs : assembleSolver a pc shaft bound = .ok sec) (k : Nat) :
    (k ∈ sec.surgeHandlers ++ sec.controlHandlers ↔ k ∈ ids a) := by
  obtain ⟨-, h2, -, -⟩ := validate_ok hv
  obtain ⟨-, -, -, -, -, -, -, g3, g4, -⟩ := C76_assembled next anti pc units a n h
  obtain ⟨-, e2, -, -, p1, p2, p3, p4, p5, -⟩ := solver_parts hs
  unfold Sec.surgeHandlers Sec.controlHandlers ids
  cases pc with
  | commonAsv =>
    obtain ⟨l, ls, hl, hc⟩ := p1 rfl
    rcases h2 with h2 | h2
    · cases h2
    · have ha : anti = .common := by simpa [requiredAntiSurge] using h2.symm
      obtain ⟨l', p, b, q, hl', -⟩ := g4 ha
      rw [(g3 (by simp) (by simp)).1, hc, hl']
      rw [hl'] at hl
      cases hl
      simp
  | asvRate => rw [p2 rfl, e2, (g3 (by simp) (by simp)).1]; simp
  | asvPressure => rw [p3 rfl, e2, (g3 (by simp) (by simp)).1]; simp
  | downstreamChoke => obtain ⟨c, hc, hc'⟩ := p4 rfl; rw [hc', hc, e2]; simp
  | upstreamChoke => obtain ⟨c, hc, hc'⟩ := p5 rfl; rw [hc', hc, e2]; simp

/-- **Assembled sections are what the solvers need.** The section built from validated units fulfils everything the
guarantees for the section solver ask for (C73, C74): its strategies control all its loops and chokes, the handlers are
different from each other, a downstream choke is the last unit, loops of later compressors do not reach in front of
earlier ones. -/
theorem C76_proper {next : Nat} {anti : AntiSurge} {pc : PControl} {units : List ProcUnit} {a : Assembled} {n : Nat}
    (hv : validate pc anti units = .ok ()) (h : assemble next anti pc units = (a, n)) {shaft : Nat} (hshaft : shaft < next)
    {bound : Boundary} {sec : Sec Nat} (hs : assembleSolver a pc shaft bound = .ok sec) :
    Closed sec ∧ Distinct sec ∧ ChokeLast sec ∧ Ordered sec ∧ sec.loops.Nodup ∧ sec.shaft ∉ sec.loops ∧ sec.bound = bound ∧
    (pc ≠ .asvPressure → sec.control ≠ .asvPressure) := by
  obtain ⟨g1, g2, g3, g4, g5, g6, g7, g8, g9, g10⟩ := C76_assembled next anti pc units a n h
  obtain ⟨e1, e2, e3, e4, p1, p2, p3, p4, p5, p6⟩ := solver_parts hs
  have hh := solver_handlers hv h hs
  have hcnt := assemble_count h
  obtain ⟨v1, v2, v3, v4⟩ := validate_ok hv
  have hsub : ∀ k ∈ a.loops, k ∈ ids a := fun k hk => List.mem_append_left _ hk
  have hnd : a.loops.Nodup := (List.nodup_append.mp g2).1
  have hdis : ∀ c, a.choke = some c → c ∉ a.loops := by
    intro c hc hm
    exact (List.nodup_append.mp g2).2.2 c hm c (by simp [hc]) rfl
  have hsh : ∀ k ∈ ids a, shaft ≠ k := fun k hk e => by have := (g3 k).mp hk; omega
  refine ⟨?_, ⟨?_, ?_⟩, ?_, ?_, by rw [e2]; exact hnd, ?_, e4, ?_⟩
  · intro u hu k hk
    rw [e1] at hu
    unfold handlers
    rw [List.mem_cons, hh]
    right
    cases u with
    | fixed u => cases hk
    | comp u => cases hk
    | mix l => simp only [slotHandler, Option.some.injEq] at hk; exact hsub k (g4 k (.inl (hk ▸ hu)))
    | split l => simp only [slotHandler, Option.some.injEq] at hk; exact hsub k (g4 k (.inr (hk ▸ hu)))
    | choke l =>
      simp only [slotHandler, Option.some.injEq] at hk
      unfold ids
      rw [g5 k (hk ▸ hu)]
      simp
  · rw [e3, hh]
    exact fun hm => hsh _ hm rfl
  · intro c hc
    rw [e2]
    apply hdis
    rcases hc with hc | hc
    all_goals
      cases pc with
      | commonAsv => obtain ⟨l, ls, -, hc'⟩ := p1 rfl; rw [hc'] at hc; cases hc
      | asvRate => rw [p2 rfl] at hc; cases hc
      | asvPressure => rw [p3 rfl] at hc; cases hc
      | downstreamChoke => obtain ⟨c', hc1, hc2⟩ := p4 rfl; rw [hc2] at hc; cases hc; try exact hc1
      | upstreamChoke => obtain ⟨c', hc1, hc2⟩ := p5 rfl; rw [hc2] at hc; cases hc; try exact hc1
  · intro c hc
    have hpc : pc = .downstreamChoke ∧ a.choke = some c := by
      cases pc with
      | commonAsv => obtain ⟨l, ls, -, hc'⟩ := p1 rfl; rw [hc'] at hc; cases hc
      | asvRate => rw [p2 rfl] at hc; cases hc
      | asvPressure => rw [p3 rfl] at hc; cases hc
      | downstreamChoke => obtain ⟨c', hc1, hc2⟩ := p4 rfl; rw [hc2] at hc; cases hc; exact ⟨rfl, hc1⟩
      | upstreamChoke => obtain ⟨c', hc1, hc2⟩ := p5 rfl; rw [hc2] at hc; cases hc
    obtain ⟨c', us, hc1, hc2, hc3⟩ := g7 hpc.1
    rw [hpc.2] at hc1
    cases hc1
    refine ⟨us, by rw [e1, hc2], ?_⟩
    intro u hu hk
    have hmem : u ∈ a.slots := by rw [hc2]; simp [hu]
    cases u with
    | fixed u => cases hk
    | comp u => cases hk
    | mix l => simp only [slotHandler, Option.some.injEq] at hk; exact hdis c hpc.2 (g4 c (.inl (hk ▸ hmem)))
    | split l => simp only [slotHandler, Option.some.injEq] at hk; exact hdis c hpc.2 (g4 c (.inr (hk ▸ hmem)))
    | choke l => exact hc3 _ hu l rfl
  · intro i pre c hb u hu k hk hm
    rw [e1] at hb
    rw [e2] at hm ⊢
    by_cases ha : anti = .common
    · obtain ⟨l, p, b, q, hl, -⟩ := g9 ha
      rw [hl] at hm ⊢
      simpa using hm
    · obtain ⟨hp, hlen⟩ := g10 ha
      refine hp.early ?_ hb hu hk hm
      rw [hlen]
      exact hcnt
  · rw [e2, e3]
    exact fun hm => hsh _ (hsub _ hm) rfl
  · intro hne hc
    cases pc with
    | commonAsv => obtain ⟨l, ls, -, hc'⟩ := p1 rfl; rw [hc'] at hc; cases hc
    | asvRate => rw [p2 rfl] at hc; cases hc
    | asvPressure => exact hne rfl
    | downstreamChoke => obtain ⟨c', hc1, hc2⟩ := p4 rfl; rw [hc2] at hc; cases hc
    | upstreamChoke => obtain ⟨c', hc1, hc2⟩ := p5 rfl; rw [hc2] at hc; cases hc

/-- With control by stage pressures, a section whose last unit is a compressor ends with it (see C74). -/
theorem C76_ends {next : Nat} {anti : AntiSurge} {us : List ProcUnit} {c : Compressor} {a : Assembled} {n : Nat}
    (hv : validate .asvPressure anti (us ++ [.compressor c]) = .ok ())
    (h : assemble next anti .asvPressure (us ++ [.compressor c]) = (a, n)) {shaft : Nat} {bound : Boundary} {sec : Sec Nat}
    (hs : assembleSolver a .asvPressure shaft bound = .ok sec) : EndsWithCompressor sec := by
  obtain ⟨-, v2, -, -⟩ := validate_ok hv
  have ha : anti = .individual := by
    rcases v2 with v2 | v2
    · cases v2
    · simpa [requiredAntiSurge] using v2.symm
  subst ha
  obtain ⟨e1, e2, -⟩ := solver_parts hs
  have hi := Inv.all next us
  simp only [assemble, withLoops, reduceCtorEq, if_false, List.foldl_append, List.foldl_cons, List.foldl_nil] at h
  generalize us.foldl Assembly.step ⟨[], [], [], next⟩ = st at hi h
  have hst : Assembly.step st (.compressor c) = ⟨st.solver ++ loopAround st.next (st.pending ++ [.compressor c]), [],
      st.loops ++ [st.next], st.next + 1⟩ := rfl
  rw [hst] at h
  cases h
  dsimp only at e1 e2
  have hshape : sec.slots = (st.solver ++ .mix st.next :: st.pending.map slotOf) ++ [.comp c, .split st.next] := by
    rw [e1]
    simp [loopAround, slotOf]
  have hcount : (st.solver ++ .mix st.next :: st.pending.map slotOf).countP isComp = st.loops.length := by
    rw [List.countP_append, List.countP_cons_of_neg (by simp [isComp]), count_map,
      count_eq_zero fun v hv => (hi.pending v hv).2, hi.count]
    rfl
  refine ⟨_, c, [.split st.next], hshape, ?_, by simp⟩
  rw [e2, hshape, List.length_append]
  simp only [List.length_singleton, Nat.add_sub_cancel]
  have := before_append_right (st.solver ++ .mix st.next :: st.pending.map slotOf) [.comp c, .split st.next] 0
  rw [hcount] at this
  rw [show st.loops.length = st.loops.length + 0 from rfl, this]
  simp [before]

/-- **Several sections share nothing but shafts.** Sections built one after the other from validated units, on shafts
that existed before, are all as the solvers need them, and any handler that two of them have in common is the shaft of
both (so C75 applies, on one shaft or on several). -/
theorem C76_sections : ∀ {plans : List Plan} {next : Nat} {ws : List (Nat × Boundary)} {secs : List (Sec Nat)},
    (∀ p ∈ plans, validate p.pc p.anti p.units = .ok ()) → (∀ w ∈ ws, w.1 < next) →
    List.Forall₂ (fun (x : (Plan × Assembled) × (Nat × Boundary)) sec =>
      assembleSolver x.1.2 x.1.1.pc x.2.1 x.2.2 = .ok sec) ((plans.zip (assembleAll next plans)).zip ws) secs →
    (∀ sec ∈ secs, Closed sec ∧ Distinct sec ∧ ChokeLast sec ∧ Ordered sec ∧ sec.loops.Nodup ∧ sec.shaft ∉ sec.loops) ∧
    (∀ sec ∈ secs, sec.shaft < next ∧ ∀ k ∈ handlers sec, k = sec.shaft ∨ next ≤ k) ∧
    secs.Pairwise fun a b => ∀ k ∈ handlers a, k ∈ handlers b → k = a.shaft ∧ k = b.shaft := by
  intro plans
  induction plans with
  | nil =>
    intro next ws secs _ _ h
    have : secs = [] := by simpa using h
    subst this
    simp
  | cons p plans ih =>
    intro next ws secs hv hw h
    cases ws with
    | nil =>
      have : secs = [] := by simpa using h
      subst this
      simp
    | cons w ws =>
      cases hp : assemble next p.anti p.pc p.units with
      | mk a n =>
        simp only [assembleAll, hp, List.zip_cons_cons] at h
        cases h with
        | @cons _ sec _ secs' hsec hrest =>
          dsimp only at hsec
          obtain ⟨-, g2, g3, -⟩ := C76_assembled next p.anti p.pc p.units a n hp
          have hle : next ≤ n := by
            have := (withLoops_looped next p.anti p.units).le
            unfold assemble at hp
            generalize withLoops next p.anti p.units = r at hp this
            cases hpc : p.pc <;> rw [hpc] at hp <;> cases hp <;> omega
          have hw1 : w.1 < next := hw w (by simp)
          obtain ⟨i1, i2, i3⟩ := ih (next := n) (fun q hq => hv q (by simp [hq]))
            (fun x hx => lt_of_lt_of_le (hw x (by simp [hx])) hle) hrest
          obtain ⟨c1, c2, c3, c4, c5, c6, c7, -⟩ := C76_proper (hv p (by simp)) hp hw1 hsec
          have hsh : sec.shaft = w.1 := (solver_parts hsec).2.2.1
          have hh := solver_handlers (hv p (by simp)) hp hsec
          have hin : ∀ k ∈ handlers sec, k = sec.shaft ∨ (next ≤ k ∧ k < n) := by
            intro k hk
            unfold handlers at hk
            rw [List.mem_cons, hh, g3] at hk
            exact hk
          have hshafts : ∀ sec' ∈ secs', sec'.shaft < next := by
            intro sec' hs'
            have : ∀ (xs : List ((Plan × Assembled) × (Nat × Boundary))) (ys : List (Sec Nat)),
                List.Forall₂ (fun (x : (Plan × Assembled) × (Nat × Boundary)) sec =>
                  assembleSolver x.1.2 x.1.1.pc x.2.1 x.2.2 = .ok sec) xs ys → (∀ x ∈ xs, x.2.1 < next) →
                ∀ y ∈ ys, y.shaft < next := by
              intro xs ys hxy
              induction hxy with
              | nil => intro _ y hy; cases hy
              | cons h1 _ ih' =>
                intro hx y hy
                rw [List.mem_cons] at hy
                rcases hy with rfl | hy
                · rw [(solver_parts h1).2.2.1]; exact hx _ (by simp)
                · exact ih' (fun x hx' => hx x (by simp [hx'])) y hy
            refine this _ _ hrest ?_ sec' hs'
            intro x hx
            exact hw x.2 (by
              have := (List.of_mem_zip hx).2
              simp [this])
          refine ⟨?_, ?_, ?_⟩
          · intro s hs
            rw [List.mem_cons] at hs
            rcases hs with rfl | hs
            · exact ⟨c1, c2, c3, c4, c5, c6⟩
            · exact i1 s hs
          · intro s hs
            rw [List.mem_cons] at hs
            rcases hs with rfl | hs
            · exact ⟨by rw [hsh]; exact hw1, fun k hk => (hin k hk).imp_right fun h => h.1⟩
            · exact ⟨hshafts s hs, fun k hk => ((i2 s hs).2 k hk).imp_right fun h => le_trans hle h⟩
          · rw [List.pairwise_cons]
            refine ⟨?_, i3⟩
            intro s hs k hk1 hk2
            have s1 := hshafts s hs
            rcases hin k hk1 with e | e
            · rcases (i2 s hs).2 k hk2 with e' | e'
              · exact ⟨e, e'⟩
              · exfalso; rw [hsh] at e; omega
            · rcases (i2 s hs).2 k hk2 with e' | e'
              · exfalso; omega
              · exfalso; omega

/-! ## Idle loops -/

/-- A unit of the input, driven at a speed. -/
def atSpeed (n : ℚ) : ProcUnit → ProcUnit
  | .compressor c => .compressor { c with speed := some n }
  | u => u

theorem make_self (s : Stream) (h : 0 ≤ s.mass) (x : ℚ) (hx : x = s.mass) : Stream.make s.model s.props x = .ok s := by
  subst hx
  unfold Stream.make
  rw [if_neg (not_lt.mpr h)]

theorem unit_mass_nonneg (svc : Service) (u : ProcUnit)
    (hu : ∀ c, u = .compressor c → ∀ n s o, c.outlet n s = .ok o → 0 ≤ s.mass → 0 ≤ o.mass) (s o : Stream) (hs : 0 ≤ s.mass)
    (h : u.propagate svc s = .ok o) : 0 ≤ o.mass := by
  have hmake : ∀ m p x o, Stream.make m p x = .ok o → 0 ≤ o.mass := by
    intro m p x o h
    unfold Stream.make at h
    split at h
    · cases h
    · rename_i hx; cases h; exact not_lt.mp hx
  have hstd : ∀ m p t r o, svc.fromStdRate m p t r = .ok o → 0 ≤ o.mass :=
    fun m p t r o h => (C40.fromStdRate_ok svc m p t r o h).2.2.2
  have hch : ∀ dp, choke svc dp s = .ok o → 0 ≤ o.mass := by
    intro dp h
    unfold choke at h
    split at h
    · dsimp only at h
      split at h
      · cases h
      · exact hstd _ _ _ _ _ h
    · cases h; exact hs
  cases u with
  | inlet => cases h; exact hs
  | outlet => cases h; exact hs
  | choke dp => exact hch dp h
  | pressureDropper dp => exact hch dp h
  | temperatureSetter t =>
    simp only [ProcUnit.propagate, setTemperature] at h
    split at h
    · obtain ⟨q, -, h⟩ := C74.bind_ok h
      exact hmake _ _ _ _ h
    · cases h; exact hs
  | liquidRemover =>
    simp only [ProcUnit.propagate, removeLiquid] at h
    split at h
    · obtain ⟨q, -, h⟩ := C74.bind_ok h
      obtain ⟨m, q⟩ := q
      dsimp only at h
      split at h
      · obtain ⟨q, -, h⟩ := C74.bind_ok h
        exact hmake _ _ _ _ h
      · cases h
    · cases h; exact hs
  | directMixer r => exact hmake _ _ _ _ h
  | directSplitter r => exact hmake _ _ _ _ h
  | splitter r =>
    simp only [ProcUnit.propagate, split] at h
    split at h
    · cases h
    · exact hstd _ _ _ _ _ h
  | mixer e =>
    simp only [ProcUnit.propagate, mixer] at h
    cases e with
    | none => cases h
    | some e =>
      simp only [mixStreams] at h
      split at h
      · cases h
      · split at h
        · cases h
        · obtain ⟨q1, -, h⟩ := C74.bind_ok h
          obtain ⟨q2, -, h⟩ := C74.bind_ok h
          obtain ⟨q3, -, h⟩ := C74.bind_ok h
          obtain ⟨q4, -, h⟩ := C74.bind_ok h
          exact hmake _ _ _ _ h
  | compressor c =>
    simp only [ProcUnit.propagate, Compressor.propagate] at h
    split at h
    · cases h
    · obtain ⟨n, -, h⟩ := C74.bind_ok h
      split at h
      · cases h
      · split at h
        · cases h
        · exact hu c rfl _ _ _ h hs

theorem idle_run (svc : Service) (shaft : Nat) (st : Settings Nat) : ∀ (slots : List (Slot Nat)) (s : Stream),
    (∀ u ∈ slots, ∀ k, slotHandler u = some k → st k = 0) → (∀ u ∈ slots, ∀ c, u ≠ .fixed (.compressor c)) →
    (∀ c, .comp c ∈ slots → ∀ n s o, c.outlet n s = .ok o → 0 ≤ s.mass → 0 ≤ o.mass) → 0 ≤ s.mass →
    runUnits svc (slots.map (Slot.unit shaft st)) s =
      runUnits svc ((slots.filterMap original).map (atSpeed (st shaft))) s := by
  intro slots
  induction slots with
  | nil => intros; rfl
  | cons u slots ih =>
    intro s hz hf hc hs
    have ih' := fun t => ih t (fun v hv => hz v (by simp [hv])) (fun v hv => hf v (by simp [hv]))
      (fun c hv => hc c (by simp [hv]))
    have both : ∀ v : ProcUnit, (∀ c, v = .compressor c → ∀ n s o, c.outlet n s = .ok o → 0 ≤ s.mass → 0 ≤ o.mass) →
        runUnits svc (v :: slots.map (Slot.unit shaft st)) s =
        runUnits svc (v :: (slots.filterMap original).map (atSpeed (st shaft))) s := by
      intro v hv
      simp only [runUnits, Bind.bind, Except.bind]
      cases hp : v.propagate svc s with
      | error e => rfl
      | ok t => exact ih' t (unit_mass_nonneg svc v hv s t hs hp)
    have skip : ∀ v : ProcUnit, v.propagate svc s = .ok s →
        runUnits svc (v :: slots.map (Slot.unit shaft st)) s =
        runUnits svc ((slots.filterMap original).map (atSpeed (st shaft))) s := by
      intro v hv
      simp only [runUnits, Bind.bind, Except.bind, hv]
      exact ih' s hs
    cases u with
    | fixed v =>
      have hne : ∀ c, v ≠ .compressor c := fun c e => hf (.fixed v) (by simp) c (by rw [e])
      have hat : atSpeed (st shaft) v = v := by cases v <;> first | rfl | exact absurd rfl (hne _)
      simp only [List.map_cons, List.filterMap_cons, original, Slot.unit, hat]
      exact both v fun c e => absurd e (hne c)
    | comp c =>
      simp only [List.map_cons, List.filterMap_cons, original, Slot.unit, atSpeed]
      exact both _ fun c' e => by cases e; exact hc c (by simp)
    | mix l =>
      simp only [List.map_cons, List.filterMap_cons, original, Slot.unit]
      rw [hz (.mix l) (by simp) l rfl]
      exact skip _ (make_self s hs _ (by ring))
    | split l =>
      simp only [List.map_cons, List.filterMap_cons, original, Slot.unit]
      rw [hz (.split l) (by simp) l rfl]
      exact skip _ (make_self s hs _ (by ring))
    | choke l =>
      simp only [List.map_cons, List.filterMap_cons, original, Slot.unit]
      rw [hz (.choke l) (by simp) l rfl]
      exact skip _ (by simp [ProcUnit.propagate, choke])

theorem no_hidden (slots : List (Slot Nat))
    (h : slots.countP isComp = (slots.filterMap original).countP isCompressor) :
    ∀ u ∈ slots, ∀ c, u ≠ .fixed (.compressor c) := by
  have key : ∀ (s : List (Slot Nat)), s.countP isComp ≤ (s.filterMap original).countP isCompressor ∧
      ((∃ u ∈ s, ∃ c, u = .fixed (.compressor c)) → s.countP isComp < (s.filterMap original).countP isCompressor) := by
    intro s
    induction s with
    | nil => simp
    | cons u s ih =>
      obtain ⟨ih1, ih2⟩ := ih
      have hcons : ∀ v : Slot Nat, v = u → (∃ w ∈ u :: s, ∃ c, w = .fixed (.compressor c)) →
          (∃ c, v = .fixed (.compressor c)) ∨ ∃ w ∈ s, ∃ c, w = .fixed (.compressor c) := by
        rintro v rfl ⟨w, hw, hc⟩
        rw [List.mem_cons] at hw
        rcases hw with rfl | hw
        · exact .inl hc
        · exact .inr ⟨w, hw, hc⟩
      cases u with
      | fixed v =>
        rw [List.countP_cons_of_neg (by simp [isComp])]
        simp only [List.filterMap_cons, original]
        by_cases hv : isCompressor v = true
        · rw [List.countP_cons_of_pos hv]
          exact ⟨by omega, fun _ => by omega⟩
        · rw [List.countP_cons_of_neg hv]
          refine ⟨ih1, fun h => ?_⟩
          rcases hcons _ rfl h with ⟨c, hc⟩ | h
          · cases hc; exact absurd rfl hv
          · exact ih2 h
      | comp c =>
        rw [List.countP_cons_of_pos (by rfl)]
        simp only [List.filterMap_cons, original]
        rw [List.countP_cons_of_pos (by rfl)]
        refine ⟨by omega, fun h => ?_⟩
        rcases hcons _ rfl h with ⟨c, hc⟩ | h
        · cases hc
        · have := ih2 h; omega
      | mix l =>
        rw [List.countP_cons_of_neg (by simp [isComp])]
        simp only [List.filterMap_cons, original]
        refine ⟨ih1, fun h => ?_⟩
        rcases hcons _ rfl h with ⟨c, hc⟩ | h
        · cases hc
        · exact ih2 h
      | split l =>
        rw [List.countP_cons_of_neg (by simp [isComp])]
        simp only [List.filterMap_cons, original]
        refine ⟨ih1, fun h => ?_⟩
        rcases hcons _ rfl h with ⟨c, hc⟩ | h
        · cases hc
        · exact ih2 h
      | choke l =>
        rw [List.countP_cons_of_neg (by simp [isComp])]
        simp only [List.filterMap_cons, original]
        refine ⟨ih1, fun h => ?_⟩
        rcases hcons _ rfl h with ⟨c, hc⟩ | h
        · cases hc
        · exact ih2 h
  intro u hu c e
  have := (key slots).2 ⟨u, hu, c, e⟩
  omega

/-- **Idle additions change nothing.** With its loops at 0 and its choke open, an assembled section does to any stream
exactly what its units alone do, with the compressors at the shaft's speed: same outlet, same errors. -/
theorem C76_idle {next : Nat} {anti : AntiSurge} {pc : PControl} {units : List ProcUnit} {a : Assembled} {n : Nat}
    (h : assemble next anti pc units = (a, n)) (svc : Service) (shaft : Nat) (st : Settings Nat)
    (hz : ∀ k ∈ ids a, st k = 0) (hc : ∀ c, .compressor c ∈ units → ∀ n s o, c.outlet n s = .ok o → 0 ≤ s.mass → 0 ≤ o.mass)
    (s : Stream) (hs : 0 ≤ s.mass) :
    runUnits svc (a.slots.map (Slot.unit shaft st)) s = runUnits svc (units.map (atSpeed (st shaft))) s := by
  obtain ⟨g1, g2, g3, g4, g5, -⟩ := C76_assembled next anti pc units a n h
  have hcnt := assemble_count h
  rw [idle_run svc shaft st a.slots s ?_ (no_hidden _ (by rw [g1]; exact hcnt)) ?_ hs, g1]
  · intro u hu k hk
    cases u with
    | fixed u => cases hk
    | comp u => cases hk
    | mix l => simp only [slotHandler, Option.some.injEq] at hk; subst hk; exact hz l (List.mem_append_left _ (g4 l (.inl hu)))
    | split l => simp only [slotHandler, Option.some.injEq] at hk; subst hk; exact hz l (List.mem_append_left _ (g4 l (.inr hu)))
    | choke l =>
      simp only [slotHandler, Option.some.injEq] at hk
      subst hk
      exact hz l (by unfold ids; rw [g5 l hu]; simp)
  · intro c hm
    refine hc c ?_
    rw [← g1, List.mem_filterMap]
    exact ⟨_, hm, rfl⟩

/-! ## Where the pressure constraint is put -/

/-- **The constraint of the last section** is on its last unit: what the run of the section ends with. **The constraint
of an earlier section is not:** it is on the unit in front of the last one. -/
theorem C76_target (n i : Nat) (slots : List (Slot Nat)) (hi : i < n) (hl : 2 ≤ slots.length) :
    ∃ j, targetPlace n i slots = some j ∧
      (i + 1 = n → (pipelineSection n i slots)[j]? = slots.getLast?) ∧
      (i + 1 < n → (pipelineSection n i slots)[j]? = slots[slots.length - 2]?) := by
  have hpos : constraintPosition n i = 1 := by unfold constraintPosition; rw [if_neg (by omega)]
  refine ⟨(pipelineSection n i slots).length - 2, ?_, ?_, ?_⟩
  · unfold targetPlace
    dsimp only
    rw [hpos, if_pos (by simp [pipelineSection]; omega)]
    rfl
  · intro h
    unfold pipelineSection
    rw [if_pos h]
    rw [List.getElem?_append_left (by simp; omega)]
    rw [List.getLast?_eq_getElem?]
    by_cases h0 : i = 0
    · rw [if_pos h0, List.getElem?_append_right (by simp; omega)]
      congr 1
      simp
    · rw [if_neg h0]
      simp
  · intro h
    have hne : ¬ i + 1 = n := by omega
    unfold pipelineSection
    rw [if_neg hne, List.append_nil]
    by_cases h0 : i = 0
    · rw [if_pos h0, List.getElem?_append_right (by simp; omega)]
      congr 1
    · rw [if_neg h0, List.nil_append]

/-! ## Examples and deviations -/

/-- What kind of unit is at a place, and its handler. -/
def kind : Slot Nat → String × Nat
  | .fixed (.temperatureSetter _) => ("cooler", 0)
  | .fixed (.mixer _) => ("mixer", 0)
  | .fixed (.pressureDropper _) => ("dropper", 0)
  | .fixed _ => ("other", 0)
  | .mix l => ("begin", l)
  | .split l => ("end", l)
  | .choke h => ("choke", h)
  | .comp _ => ("compressor", 0)

def train : List ProcUnit :=
  [.temperatureSetter 300, .compressor C73.pusher, .pressureDropper 1, .mixer none, .temperatureSetter 300, .compressor C74.sloper,
    .pressureDropper 5]

example : ((assemble 7 .individual .downstreamChoke train).1.slots.map kind) =
    [("begin", 7), ("cooler", 0), ("compressor", 0), ("end", 7), ("dropper", 0), ("mixer", 0), ("begin", 8), ("cooler", 0),
      ("compressor", 0), ("end", 8), ("dropper", 0), ("choke", 9)] := by decide +kernel
example : validate .downstreamChoke .individual train = .ok () ∧ validate .commonAsv .common train = .error .validation ∧
    validate .asvRate .common train = .error .validation ∧ validate .asvRate .individual [.pressureDropper 1] = .error .validation ∧
    validate .upstreamChoke .none train = .error .validation := by decide +kernel

/-- The theorems apply. -/
example : (∀ p ∈ [(⟨.individual, .asvRate, train⟩ : Plan), ⟨.individual, .downstreamChoke, train⟩],
      validate p.pc p.anti p.units = .ok ()) ∧
    ∃ secs : List (Sec Nat), secs.length = 2 ∧ List.Forall₂ (fun (x : (Plan × Assembled) × (Nat × Boundary)) sec =>
      assembleSolver x.1.2 x.1.1.pc x.2.1 x.2.2 = .ok sec)
      (([(⟨.individual, .asvRate, train⟩ : Plan), ⟨.individual, .downstreamChoke, train⟩].zip
        (assembleAll 1 [⟨.individual, .asvRate, train⟩, ⟨.individual, .downstreamChoke, train⟩])).zip [(0, ⟨1, 2⟩), (0, ⟨1, 2⟩)])
      secs := by
  refine ⟨by decide +kernel, ?_⟩
  refine ⟨[⟨(assemble 1 .individual .asvRate train).1.slots, [1, 2], 0, ⟨1, 2⟩, .asvRate⟩,
    ⟨(assemble 3 .individual .downstreamChoke train).1.slots, [3, 4], 0, ⟨1, 2⟩, .downstreamChoke 5⟩], rfl, ?_⟩
  exact .cons rfl (.cons rfl .nil)

def pair : List ProcUnit := [.compressor C73.pusher, .compressor C73.pusher]

/-- **Deviation.** Two compressors with a common anti-surge valve and a downstream choke are accepted when the model is
read, and refused by an assertion when the solver is put together. -/
theorem C76_common_choke (bound : Boundary) :
    validate .downstreamChoke .common pair = .ok () ∧
    assembleSolver (assemble 1 .common .downstreamChoke pair).1 .downstreamChoke 0 bound = .error .assertion := by
  exact ⟨by decide +kernel, rfl⟩

def dropped : List ProcUnit := [.compressor C73.pusher, .pressureDropper 5]

/-- **Deviation.** The first of two sections ends with a pressure drop of 5. Its pressure constraint is put on the unit in
front of that, where the pressure is higher than at the end of the section. -/
theorem C76_target_early :
    let a := (assemble 1 .individual .asvRate dropped).1
    let st : Settings Nat := fun k => if k = 0 then 20 else 0
    validate .asvRate .individual dropped = .ok () ∧
    (targetPlace 2 0 a.slots).map (fun j => ((pipelineSection 2 0 a.slots).take (j + 1)).map kind) =
      some [("other", 0), ("begin", 1), ("compressor", 0), ("end", 1)] ∧
    (targetPlace 2 0 a.slots).map (fun j => (runUnits C40.ideal (((pipelineSection 2 0 a.slots).take (j + 1)).map
      (Slot.unit 0 st)) (C73.inlet 100)).map (·.props.pressure)) = some (.ok 40) ∧
    (runUnits C40.ideal ((pipelineSection 2 0 a.slots).map (Slot.unit 0 st)) (C73.inlet 100)).map (·.props.pressure) =
      .ok 35 := by
  decide +kernel

end Verif.C76
