import Verif.Props.C24
import Mathlib.Algebra.Order.Field.Rat
import Mathlib.Algebra.Order.BigOperators.Group.List
import Mathlib.Tactic.Linarith
import Mathlib.Tactic.Ring

/-!
# C25: cross-over moves rate between consumers but never creates or loses any

One period; the array operations of the code are element-wise. Rates, maximum rates and discharge pressures are
functions of the consumer number `0 .. n-1`; `spec k = 0` means no cross-over, `spec k = j + 1` cross-over to `j`.
-/

namespace Verif.C25
open Verif.Time Verif.Rates Verif.System Verif.C24

/-! ## Specification -/

/-- What consumer `k` hands over: the excess over its maximum, provided it has a cross-over and the receiver works at
the same or a higher discharge pressure. -/
def handed (rates maxs dps : Nat → ℚ) (spec : Nat → Nat) (k : Nat) : ℚ :=
  if spec k ≠ 0 ∧ dps k ≤ dps (spec k - 1) ∧ maxs k < rates k then rates k - maxs k else 0

/-- What consumer `i` receives from the consumers `0 .. m-1`. -/
def received (rates maxs dps : Nat → ℚ) (spec : Nat → Nat) (m i : Nat) : ℚ :=
  ((List.range m).map (fun k => if spec k = i + 1 then handed rates maxs dps spec k else 0)).sum

/-- The numbers of consumers `0 .. n-1`. -/
def table {α : Type} (n : Nat) (f : Nat → α) : List α := (List.range n).map f

/-! ## Lemmas -/

theorem table_get {α : Type} (n : Nat) (f : Nat → α) (k : Nat) (h : k < n) : (table n f)[k]? = some (f k) := by
  simp [table, h]

theorem table_length {α : Type} (n : Nat) (f : Nat → α) : (table n f).length = n := by simp [table]

theorem table_set {α : Type} (n : Nat) (f : Nat → α) (k : Nat) (v : α) :
    (table n f).set k v = table n (fun i => if i = k then v else f i) := by
  apply List.ext_getElem (by simp [table])
  intro i h1 h2
  have hi : i < n := by simpa [table] using h2
  by_cases hk : k = i
  · subst hk; simp [table]
  · have : ¬ i = k := fun h => hk h.symm
    simp [table, hk, this]

theorem table_congr {α : Type} (n : Nat) (f g : Nat → α) (h : ∀ i, i < n → f i = g i) : table n f = table n g := by
  unfold table
  apply List.map_congr_left
  intro i hi
  exact h i (by simpa using hi)

theorem handed_nonneg (rates maxs dps : Nat → ℚ) (spec : Nat → Nat) (k : Nat) :
    0 ≤ handed rates maxs dps spec k := by
  unfold handed
  split
  · rename_i h; linarith [h.2.2]
  · exact le_refl 0

theorem received_nonneg (rates maxs dps : Nat → ℚ) (spec : Nat → Nat) (m i : Nat) :
    0 ≤ received rates maxs dps spec m i := by
  unfold received
  apply List.sum_nonneg
  intro x hx
  obtain ⟨k, _, rfl⟩ := List.mem_map.mp hx
  split
  · exact handed_nonneg _ _ _ _ _
  · exact le_refl 0

theorem received_succ (rates maxs dps : Nat → ℚ) (spec : Nat → Nat) (m i : Nat) :
    received rates maxs dps spec (m + 1) i = received rates maxs dps spec m i +
      (if spec m = i + 1 then handed rates maxs dps spec m else 0) := by
  simp [received, List.range_succ]

/-- Rates after the first `k` entries. -/
def partial_ (rates maxs dps : Nat → ℚ) (spec : Nat → Nat) (k i : Nat) : ℚ :=
  rates i - (if i < k then handed rates maxs dps spec i else 0) + received rates maxs dps spec k i

theorem step (n : Nat) (rates maxs dps : Nat → ℚ) (spec : Nat → Nat) (k : Nat) (hk : k < n) (hs : spec k ≤ n) :
    crossStep (table n rates) (table n maxs) (table n dps) (table n (partial_ rates maxs dps spec k))
      ((spec k : Int), k) = .ok (table n (partial_ rates maxs dps spec (k + 1))) := by
  unfold crossStep
  by_cases h0 : spec k = 0
  · simp only [h0, Nat.cast_zero, if_true]
    congr 1
    apply table_congr
    intro i hi
    have hh : handed rates maxs dps spec k = 0 := by simp [handed, h0]
    unfold partial_
    rw [received_succ, hh]
    by_cases hik : i = k
    · subst hik; simp [hh]
    · have : i < k + 1 ↔ i < k := by omega
      simp [this]
  · have hx : ((spec k : Int)) ≠ 0 := by exact_mod_cast h0
    rw [if_neg hx]
    have hr : receiver (spec k : Int) (table n dps).length = some (spec k - 1) := by
      unfold receiver
      rw [table_length]
      have h1 : (0 : Int) ≤ (spec k : Int) - 1 := by omega
      have h2 : (spec k : Int) - 1 < n := by omega
      simp only [h1, h2, if_true, Option.some.injEq]
      omega
    have hj : spec k - 1 < n := by omega
    simp only [hr, Bind.bind, Except.bind, Pure.pure, Except.pure, nth_ok (table_get n _ k hk),
      nth_ok (table_get n dps _ hj), table_set, nth_ok (table_get n _ _ hj)]
    have ht : transferRate (rates k) (maxs k) (dps k) (dps (spec k - 1)) = handed rates maxs dps spec k := by
      unfold transferRate handed
      simp only [ge_iff_le, gt_iff_lt, sub_pos, ne_eq, h0, not_false_eq_true, true_and]
      split <;> split <;> simp_all
    rw [ht]
    congr 1
    apply table_congr
    intro i hi
    unfold partial_
    rw [received_succ]
    by_cases h1 : i = spec k - 1
    · have e1 : spec k = i + 1 := by omega
      by_cases h2 : i = k
      · subst h2
        simp [e1]
      · have e3 : i < k + 1 ↔ i < k := by omega
        simp [e1, e3, h2]
        ring
    · have e1 : ¬ spec k = i + 1 := by omega
      by_cases h2 : i = k
      · subst h2
        simp [h1, e1]
        ring
      · have e3 : i < k + 1 ↔ i < k := by omega
        simp [h1, h2, e1, e3]

theorem run (n : Nat) (rates maxs dps : Nat → ℚ) (spec : Nat → Nat) (hs : ∀ k, k < n → spec k ≤ n) :
    ∀ (m k : Nat), k + m = n →
    (((List.range' k m).map (fun i => (spec i : Int))).zipIdx k).foldlM
      (crossStep (table n rates) (table n maxs) (table n dps)) (table n (partial_ rates maxs dps spec k)) =
      .ok (table n (partial_ rates maxs dps spec n)) := by
  intro m
  induction m with
  | zero => intro k hk; simp at hk; subst hk; rfl
  | succ m ih =>
    intro k hk
    rw [List.range'_succ, List.map_cons, List.zipIdx_cons, List.foldlM_cons,
      step n rates maxs dps spec k (by omega) (hs k (by omega))]
    exact ih (k + 1) (by omega)

/-! ## Properties -/

/-- **Exact result.** Every consumer keeps its rate, minus what it hands over, plus what it receives. -/
theorem C25_exact (n : Nat) (rates maxs dps : Nat → ℚ) (spec : Nat → Nat) (hs : ∀ k, k < n → spec k ≤ n) :
    crossOver (table n rates) (table n maxs) (table n dps) (table n (fun k => (spec k : Int))) =
      .ok (table n (fun i => rates i - handed rates maxs dps spec i + received rates maxs dps spec n i)) := by
  have h0 : table n rates = table n (partial_ rates maxs dps spec 0) := by
    apply table_congr
    intro i _
    simp [partial_, received]
  have h1 : table n (partial_ rates maxs dps spec n) =
      table n (fun i => rates i - handed rates maxs dps spec i + received rates maxs dps spec n i) := by
    apply table_congr
    intro i hi
    simp [partial_, hi]
  have := run n rates maxs dps spec hs n 0 (by omega)
  rw [h1] at this
  unfold crossOver
  rw [← this, ← h0]
  simp only [table, List.range_eq_range']

theorem sum_set (l : List ℚ) : ∀ (i : Nat) (a v : ℚ), l[i]? = some a → (l.set i v).sum = l.sum - a + v := by
  induction l with
  | nil => intro i a v h; simp at h
  | cons x l ih =>
    intro i a v h
    cases i with
    | zero =>
      simp at h
      subst h
      simp
      ring
    | succ i =>
      have := ih i a v (by simpa using h)
      simp only [List.set_cons_succ, List.sum_cons, this]
      ring

theorem nth_some {α : Type} {xs : List α} {i : Nat} {x : α} (h : nth xs i = .ok x) : xs[i]? = some x := by
  unfold nth at h
  cases hx : xs[i]? with
  | none => rw [hx] at h; exact absurd h (by simp)
  | some y => rw [hx] at h; cases h; rfl

theorem step_sum (rates maxs dps after res : List ℚ) (xi : Int × Nat)
    (h : crossStep rates maxs dps after xi = .ok res) : res.sum = after.sum ∧ res.length = after.length := by
  unfold crossStep at h
  split at h
  · cases h; exact ⟨rfl, rfl⟩
  · split at h
    · exact absurd h (by simp)
    · rename_i j _
      simp only [Bind.bind, Except.bind, Pure.pure, Except.pure] at h
      split at h
      · exact absurd h (by simp)
      split at h
      · exact absurd h (by simp)
      split at h
      · exact absurd h (by simp)
      split at h
      · exact absurd h (by simp)
      split at h
      · exact absurd h (by simp)
      rename_i a ha
      split at h
      · exact absurd h (by simp)
      rename_i b hb
      cases h
      constructor
      · rw [sum_set _ _ _ _ (nth_some hb), sum_set _ _ _ _ (nth_some ha)]
        ring
      · simp

/-- **Conservation.** Whatever the cross-over specification (also indices counted from the end): when the calculation
succeeds, the total rate over the consumers is unchanged. -/
theorem C25_total (rates maxs dps : List ℚ) (spec : List Int) (after : List ℚ)
    (h : crossOver rates maxs dps spec = .ok after) : after.sum = rates.sum ∧ after.length = rates.length := by
  unfold crossOver at h
  generalize spec.zipIdx = l at h
  have key : ∀ (l : List (Int × Nat)) (a : List ℚ), l.foldlM (crossStep rates maxs dps) a = .ok after →
      after.sum = a.sum ∧ after.length = a.length := by
    intro l
    induction l with
    | nil => intro a h; cases h; exact ⟨rfl, rfl⟩
    | cons xi l ih =>
      intro a h
      rw [List.foldlM_cons] at h
      cases hx : crossStep rates maxs dps a xi with
      | error e => rw [hx] at h; exact absurd h (by simp [Bind.bind, Except.bind])
      | ok b =>
        rw [hx] at h
        obtain ⟨h1, h2⟩ := step_sum _ _ _ _ _ _ hx
        obtain ⟨h3, h4⟩ := ih b h
        exact ⟨h3.trans h1, h4.trans h2⟩
  exact key l rates h

/-- **No negative rates.** -/
theorem C25_nonnegative (n : Nat) (rates maxs dps : Nat → ℚ) (spec : Nat → Nat) (hs : ∀ k, k < n → spec k ≤ n)
    (hr : ∀ k, k < n → 0 ≤ rates k) (hm : ∀ k, k < n → 0 ≤ maxs k) :
    ∃ after, crossOver (table n rates) (table n maxs) (table n dps) (table n (fun k => (spec k : Int))) = .ok after ∧
      ∀ x ∈ after, 0 ≤ x := by
  refine ⟨_, C25_exact n rates maxs dps spec hs, ?_⟩
  intro x hx
  obtain ⟨i, hi, rfl⟩ := List.mem_map.mp hx
  have hi : i < n := by simpa using hi
  have h1 := received_nonneg rates maxs dps spec n i
  have h2 : handed rates maxs dps spec i ≤ rates i := by
    unfold handed
    split
    · linarith [hm i hi]
    · exact hr i hi
  show 0 ≤ rates i - handed rates maxs dps spec i + received rates maxs dps spec n i
  linarith

/-- **A sender nobody sends to** ends at its maximum when it had more, and keeps its rate otherwise; so does any
consumer that neither sends nor receives. -/
theorem C25_sender (n : Nat) (rates maxs dps : Nat → ℚ) (spec : Nat → Nat) (hs : ∀ k, k < n → spec k ≤ n)
    (i : Nat) (hi : i < n) (hno : ∀ k, k < n → spec k ≠ i + 1) :
    ∃ after, crossOver (table n rates) (table n maxs) (table n dps) (table n (fun k => (spec k : Int))) = .ok after ∧
      ((spec i ≠ 0 ∧ dps i ≤ dps (spec i - 1)) → after[i]? = some (min (rates i) (maxs i))) ∧
      (¬ (spec i ≠ 0 ∧ dps i ≤ dps (spec i - 1)) → after[i]? = some (rates i)) := by
  refine ⟨_, C25_exact n rates maxs dps spec hs, ?_⟩
  have h0 : received rates maxs dps spec n i = 0 := by
    unfold received
    apply List.sum_eq_zero
    intro x hx
    obtain ⟨k, hk, rfl⟩ := List.mem_map.mp hx
    rw [if_neg (hno k (by simpa using hk))]
  rw [table_get n _ i hi, h0]
  constructor
  · rintro ⟨h1, h2⟩
    unfold handed
    by_cases h : maxs i < rates i
    · rw [if_pos ⟨h1, h2, h⟩, min_eq_right (le_of_lt h)]
      congr 1
      ring
    · rw [if_neg (fun hh => h hh.2.2), min_eq_left (not_lt.mp h)]
      congr 1
      ring
  · intro hn
    unfold handed
    rw [if_neg (fun hh => hn ⟨hh.1, hh.2.1⟩)]
    congr 1
    ring

theorem all_le_sum_eq : ∀ (a b : List ℚ), a.length = b.length → a.sum = b.sum →
    (∀ (i : Nat) (h : i < a.length) (h' : i < b.length), a[i] ≤ b[i]) → a = b := by
  have le : ∀ (a b : List ℚ), a.length = b.length →
      (∀ (i : Nat) (h : i < a.length) (h' : i < b.length), a[i] ≤ b[i]) → a.sum ≤ b.sum := by
    intro a
    induction a with
    | nil => intro b hl _; rw [List.length_eq_zero_iff.mp hl.symm]
    | cons x a ih =>
      intro b hl h
      cases b with
      | nil => simp at hl
      | cons y b =>
        have h0 := h 0 (by simp) (by simp)
        have := ih b (by simpa using hl) (fun i h1 h2 => h (i + 1) (by simpa using h1) (by simpa using h2))
        simp only [List.getElem_cons_zero, List.sum_cons] at h0 ⊢
        linarith
  intro a
  induction a with
  | nil => intro b hl _ _; exact (List.length_eq_zero_iff.mp hl.symm).symm
  | cons x a ih =>
    intro b hl hsum h
    cases b with
    | nil => simp at hl
    | cons y b =>
      have h0 := h 0 (by simp) (by simp)
      have h1 := fun i h1 h2 => h (i + 1) (by simpa using h1) (by simpa using h2)
      simp only [List.getElem_cons_zero, List.sum_cons] at h0 hsum
      have hle := le a b (by simpa using hl) (fun i p q => h1 i p q)
      rw [ih b (by simpa using hl) (by linarith) (fun i p q => h1 i p q)]
      congr 1
      linarith

/-- **The flag.** Cross-over is reported as used exactly when some consumer's rate was changed by it. -/
theorem C25_flag (rates maxs dps : List ℚ) (spec : List Int) (after : List ℚ)
    (h : crossOver rates maxs dps spec = .ok after) : crossOverUsed rates after = true ↔ after ≠ rates := by
  obtain ⟨hsum, hlen⟩ := C25_total _ _ _ _ _ h
  unfold crossOverUsed
  rw [List.any_eq_true]
  constructor
  · rintro ⟨c, hc, hpos⟩ he
    obtain ⟨i, hi, rfl⟩ := List.mem_iff_getElem.mp hc
    rw [List.getElem_zipWith] at hpos
    subst he
    simp at hpos
  · intro hne
    by_contra hno
    apply hne
    apply all_le_sum_eq _ _ hlen hsum
    intro i h1 h2
    by_contra hgt
    apply hno
    refine ⟨after[i] - rates[i], ?_, by simpa using hgt⟩
    rw [List.mem_iff_getElem]
    exact ⟨i, by simp [hlen]; omega, by rw [List.getElem_zipWith]⟩

/-- A cross-over to a consumer that does not exist is an error (the first one met). -/
theorem C25_unknown_receiver (n : Nat) (rates maxs dps : Nat → ℚ) (spec : Nat → Nat) (k : Nat) (hk : k < n)
    (hs : ∀ j, j < k → spec j ≤ n) (hbad : n < spec k) :
    crossOver (table n rates) (table n maxs) (table n dps) (table n (fun k => (spec k : Int))) =
      .error .indexError := by
  have key : ∀ (m i : Nat), i + m = k → ∀ l : List (Int × Nat),
      ((((List.range' i m).map (fun i => (spec i : Int))).zipIdx i) ++ ((spec k : Int), k) :: l).foldlM
        (crossStep (table n rates) (table n maxs) (table n dps)) (table n (partial_ rates maxs dps spec i)) =
        .error .indexError := by
    intro m
    induction m with
    | zero =>
      intro i hi l
      simp only [List.range'_zero, List.map_nil, List.zipIdx_nil, List.nil_append]
      rw [List.foldlM_cons]
      unfold crossStep
      have : ((spec k : Int)) ≠ 0 := by omega
      rw [if_neg this]
      have hr : receiver (spec k : Int) (table n dps).length = none := by
        unfold receiver
        rw [table_length]
        have h1 : (0 : Int) ≤ (spec k : Int) - 1 := by omega
        have h2 : ¬ (spec k : Int) - 1 < n := by omega
        simp only [h1, h2, if_true, if_false]
      rw [hr]
      rfl
    | succ m ih =>
      intro i hi l
      rw [List.range'_succ, List.map_cons, List.zipIdx_cons, List.cons_append, List.foldlM_cons,
        step n rates maxs dps spec i (by omega) (hs i (by omega))]
      exact ih (i + 1) (by omega) l
  have h0 : table n rates = table n (partial_ rates maxs dps spec 0) := by
    apply table_congr
    intro i _
    simp [partial_, received]
  have hsplit : List.range' 0 n = List.range' 0 k ++ k :: List.range' (k + 1) (n - k - 1) := by
    have e : n = k + ((n - k - 1) + 1) := by omega
    conv_lhs => rw [e, ← List.range'_append_1, List.range'_succ]
    simp
  have := key k 0 (by omega) (((List.range' (k + 1) (n - k - 1)).map (fun i => (spec i : Int))).zipIdx (k + 1))
  unfold crossOver
  rw [← h0] at this
  rw [← this]
  congr 1
  unfold table
  rw [List.range_eq_range', hsplit, List.map_append, List.map_cons, List.zipIdx_append, List.zipIdx_cons]
  simp

/-- **Finding.** What a consumer hands over is worked out from the rates before cross-over: in a chain 1 → 2 → 3 the
second consumer keeps what it got from the first even when that is above its maximum, although the third consumer
could take it. -/
theorem C25_chain_not_forwarded :
    crossOver [10, 5, 0] [6, 6, 100] [1, 1, 1] [2, 3, 0] = .ok [6, 9, 0] := by
  decide +kernel

/-- The rates of a setting: those asked for when no cross-over is given, otherwise those after every transfer. -/
theorem C25_setting (n : Nat) (rates maxs dps : Nat → ℚ) (spec : Nat → Nat) (hs : ∀ k, k < n → spec k ≤ n) :
    ratesAfter (table n rates) (table n maxs) (table n dps) none = .ok (table n rates) ∧
    ratesAfter (table n rates) (table n maxs) (table n dps) (some (table n (fun k => (spec k : Int)))) =
      .ok (table n (fun i => rates i - handed rates maxs dps spec i + received rates maxs dps spec n i)) := by
  refine ⟨rfl, ?_⟩
  rw [← C25_exact n rates maxs dps spec hs]
  unfold ratesAfter
  cases h : table n (fun k => (spec k : Int)) with
  | nil => rfl
  | cons x xs => rfl

example : ratesAfter [10, 5, 8] [6, 6, 5] [1, 1, 3] (some [2, 0, 1]) = .ok [6, 9, 8] := by decide +kernel

/-! ## Examples -/

example : crossOver [10, 5, 8] [6, 6, 5] [1, 1, 3] [2, 0, 1] = .ok [6, 9, 8] := by decide +kernel

example : ∀ k, k < 3 → (fun k => if k = 0 then 2 else 0) k ≤ 3 := by decide

example : crossOverUsed [10, 5] [6, 9] = true := by decide +kernel

end Verif.C25
