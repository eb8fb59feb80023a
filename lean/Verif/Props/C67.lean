import Verif.Model.Train
import Mathlib.Algebra.BigOperators.Group.List.Basic
import Mathlib.Tactic.Linarith
import Mathlib.Tactic.Ring

/-!
# C67: streams into and out of a compressor train, and cutting a train in two

The specification lays out the rates by hand: the rate at the inlet of the train, and for every stage the rates taken out
ahead of it and the rates let in ahead of it.
-/

namespace Verif.C67
open Verif.Train

variable {σ : Type}

/-! ## Specification -/

/-- The rates ahead of a stage: those taken out and those let in. -/
structure Side where
  out : List ℚ
  into : List ℚ

/-- What a stage adds to the rate. -/
def Side.gain (x : Side) : ℚ := x.into.sum - x.out.sum

/-- The list of rates in the order the user gives them. -/
def layout (q : ℚ) (xs : List Side) : List ℚ := q :: xs.flatMap fun x => x.out ++ x.into

/-- The rates suit the stages: one for each additional outlet of a splitter and inlet of a mixer. -/
def Fits (stages : List (StageP σ)) (xs : List Side) : Prop :=
  stages.map (fun s => (s.outs, s.ins)) = xs.map (fun x => (x.out.length, x.into.length))

/-- Rate through the stage after the first `n`. -/
def through (q : ℚ) (xs : List Side) (n : ℕ) : ℚ := q + ((xs.take n).map Side.gain).sum

/-! ## Lemmas -/

/-- Ports and rates of the sides, from a stage number on. -/
def paired : ℕ → List Side → List (Port × ℚ)
  | _, [] => []
  | i, x :: rest =>
    x.out.map (fun r => (⟨false, i⟩, r)) ++ x.into.map (fun r => (⟨true, i⟩, r)) ++ paired (i + 1) rest

theorem zip_replicate {α β : Type} (a : α) (l : List β) : (List.replicate l.length a).zip l = l.map fun r => (a, r) := by
  induction l with
  | nil => rfl
  | cons b l ih => simp [List.replicate_succ, ih]

theorem zip_portsFrom (stages : List (StageP σ)) (xs : List Side) (h : Fits stages xs) (i : ℕ) :
    (portsFrom i stages).zip (xs.flatMap fun x => x.out ++ x.into) = paired i xs := by
  induction stages generalizing xs i with
  | nil =>
    cases xs with
    | nil => rfl
    | cons x xs => simp [Fits] at h
  | cons s rest ih =>
    cases xs with
    | nil => simp [Fits] at h
    | cons x xs =>
      simp only [Fits, List.map_cons, List.cons.injEq, Prod.mk.injEq] at h
      obtain ⟨⟨h1, h2⟩, h3⟩ := h
      simp only [portsFrom, paired, List.flatMap_cons, h1, h2]
      rw [List.append_assoc, List.append_assoc, List.zip_append (by simp), List.zip_append (by simp), zip_replicate,
        zip_replicate, ih xs h3 (i + 1), List.append_assoc]

theorem zip_ports (stages : List (StageP σ)) (q : ℚ) (xs : List Side) (h : Fits stages xs) :
    (ports stages).zip (layout q xs) = (⟨true, 0⟩, q) :: paired 0 xs := by
  simp only [ports, layout, List.zip_cons_cons, zip_portsFrom stages xs h]

theorem paired_ge (i : ℕ) (xs : List Side) : ∀ x ∈ paired i xs, i ≤ x.1.stage := by
  induction xs generalizing i with
  | nil => simp [paired]
  | cons y ys ih =>
    intro x hx
    simp only [paired, List.mem_append, List.mem_map] at hx
    rcases hx with (⟨r, _, rfl⟩ | ⟨r, _, rfl⟩) | hx
    · exact le_refl _
    · exact le_refl _
    · exact le_trans (Nat.le_succ i) (ih (i + 1) x hx)

theorem paired_lt (i : ℕ) (xs : List Side) : ∀ x ∈ paired i xs, x.1.stage < i + xs.length := by
  induction xs generalizing i with
  | nil => simp [paired]
  | cons y ys ih =>
    intro x hx
    simp only [paired, List.mem_append, List.mem_map, List.length_cons] at hx ⊢
    rcases hx with (⟨r, _, rfl⟩ | ⟨r, _, rfl⟩) | hx
    · simp only; omega
    · simp only; omega
    · have := ih (i + 1) x hx; omega

theorem paired_append (i : ℕ) (xs ys : List Side) : paired i (xs ++ ys) = paired i xs ++ paired (i + xs.length) ys := by
  induction xs generalizing i with
  | nil => simp [paired]
  | cons x xs ih => simp only [List.cons_append, paired, ih, List.append_assoc, List.length_cons,
      show i + 1 + xs.length = i + (xs.length + 1) by omega]

/-- The ports of one stage. -/
theorem filter_stage (f : Port × ℚ → Option ℚ) (i k : ℕ) (xs : List Side)
    (hf : ∀ x : Port × ℚ, x.1.stage ≠ k → f x = none) (hik : i ≤ k) :
    (paired i xs).filterMap f =
      match xs[k - i]? with
      | none => []
      | some x => (x.out.map fun r => ((⟨false, k⟩ : Port), r)).filterMap f ++
          (x.into.map fun r => ((⟨true, k⟩ : Port), r)).filterMap f := by
  induction xs generalizing i with
  | nil => simp [paired]
  | cons y ys ih =>
    simp only [paired, List.filterMap_append]
    rcases Nat.eq_or_lt_of_le hik with rfl | hlt
    · have : (paired (i + 1) ys).filterMap f = [] := by
        rw [List.filterMap_eq_nil_iff]
        intro x hx
        exact hf x (by have := paired_ge _ _ x hx; omega)
      simp [this]
    · have h1 : (y.out.map fun r => ((⟨false, i⟩ : Port), r)).filterMap f = [] := by
        rw [List.filterMap_eq_nil_iff]
        intro x hx
        obtain ⟨r, _, rfl⟩ := List.mem_map.mp hx
        exact hf _ (by simp only; omega)
      have h2 : (y.into.map fun r => ((⟨true, i⟩ : Port), r)).filterMap f = [] := by
        rw [List.filterMap_eq_nil_iff]
        intro x hx
        obtain ⟨r, _, rfl⟩ := List.mem_map.mp hx
        exact hf _ (by simp only; omega)
      rw [h1, h2, ih (i + 1) (by omega)]
      have : k - i = (k - (i + 1)) + 1 := by omega
      rw [this]
      simp

theorem fits_take {stages : List (StageP σ)} {xs : List Side} (h : Fits stages xs) (n : ℕ) :
    Fits (stages.take n) (xs.take n) := by
  unfold Fits at *; rw [List.map_take, List.map_take, h]

theorem fits_drop {stages : List (StageP σ)} {xs : List Side} (h : Fits stages xs) (n : ℕ) :
    Fits (stages.drop n) (xs.drop n) := by
  unfold Fits at *; rw [List.map_drop, List.map_drop, h]

theorem fits_length {stages : List (StageP σ)} {xs : List Side} (h : Fits stages xs) : stages.length = xs.length := by
  have := congrArg List.length h
  simpa using this

/-! ## Streams of a stage -/

/-- **Streams of a stage.** The rates taken out ahead of a stage and let in ahead of it are those given for this stage; the
rate at the inlet of the train is not among them. -/
theorem C67_streams (stages : List (StageP σ)) (q : ℚ) (xs : List Side) (h : Fits stages xs) (k : ℕ) (x : Side)
    (hk : xs[k]? = some x) :
    ratesOut stages (layout q xs) k = x.out ∧ ratesIn stages (layout q xs) k = x.into := by
  have e1 : ∀ (b : Bool) (l : List ℚ), ((l.map fun r => ((⟨b, k⟩ : Port), r)).filterMap fun x =>
      if !x.1.inlet && decide (x.1.stage = k) then some x.2 else none) = if b then [] else l := by
    intro b l
    induction l with
    | nil => cases b <;> rfl
    | cons a l ih => cases b <;> simp_all
  have e2 : ∀ (b : Bool) (l : List ℚ), ((l.map fun r => ((⟨b, k⟩ : Port), r)).filterMap fun x =>
      if x.1.inlet && decide (x.1.stage = k) then some x.2 else none) = if b then l else [] := by
    intro b l
    induction l with
    | nil => cases b <;> rfl
    | cons a l ih => cases b <;> simp_all
  constructor
  · unfold ratesOut
    rw [zip_ports stages q xs h, List.filterMap_cons]
    simp only [Bool.not_true, Bool.false_and, Bool.false_eq_true, if_false]
    rw [filter_stage _ 0 k xs (by intro y hy; simp [hy]) (Nat.zero_le _)]
    simp only [Nat.sub_zero, hk, e1]
    simp
  · unfold ratesIn
    rw [zip_ports stages q xs h, List.drop_one, List.tail_cons]
    rw [filter_stage _ 0 k xs (by intro y hy; simp [hy]) (Nat.zero_le _)]
    simp only [Nat.sub_zero, hk, e2]
    simp

/-- Every list with a rate for each port can be laid out like this. -/
theorem C67_layout (stages : List (StageP σ)) (rates : List ℚ) (h : rates.length = (ports stages).length) :
    ∃ q xs, Fits stages xs ∧ rates = layout q xs := by
  have aux : ∀ (stages : List (StageP σ)) (i : ℕ) (l : List ℚ), l.length = (portsFrom i stages).length →
      ∃ xs : List Side, Fits stages xs ∧ l = xs.flatMap fun x => x.out ++ x.into := by
    intro stages
    induction stages with
    | nil => intro i l hl; exact ⟨[], rfl, by simpa [portsFrom] using hl⟩
    | cons s rest ih =>
      intro i l hl
      simp only [portsFrom, List.length_append, List.length_replicate] at hl
      obtain ⟨xs, h1, h2⟩ := ih (i + 1) (l.drop (s.outs + s.ins)) (by rw [List.length_drop]; omega)
      refine ⟨⟨l.take s.outs, (l.drop s.outs).take s.ins⟩ :: xs, ?_, ?_⟩
      · simp only [Fits, List.map_cons, List.cons.injEq, Prod.mk.injEq, List.length_take, List.length_drop]
        exact ⟨⟨by omega, by omega⟩, h1⟩
      · rw [List.flatMap_cons, ← h2, ← List.drop_drop, List.append_assoc, List.take_append_drop,
          List.take_append_drop]
  cases rates with
  | nil => simp [ports] at h
  | cons q l =>
    obtain ⟨xs, h1, h2⟩ := aux stages 0 l (by simpa [ports] using h)
    exact ⟨q, xs, h1, by rw [layout, ← h2]⟩

/-! ## Net rates -/

/-- Signed rates of the ports below a stage number. -/
theorem net_paired (i n : ℕ) (xs : List Side) (hn : n ≤ xs.length) :
    ((paired i xs).filterMap fun x =>
      if decide (x.1.stage < i + n) then some (if x.1.inlet then x.2 else -x.2) else none).sum =
    ((xs.take n).map Side.gain).sum := by
  conv_lhs => rw [← List.take_append_drop n xs, paired_append, List.filterMap_append, List.sum_append]
  have hl : (xs.take n).length = n := by simp [hn]
  rw [hl]
  have z : ((paired (i + n) (xs.drop n)).filterMap fun x =>
      if decide (x.1.stage < i + n) then some (if x.1.inlet then x.2 else -x.2) else none) = [] := by
    rw [List.filterMap_eq_nil_iff]
    intro x hx
    have := paired_ge _ _ x hx
    have : ¬ x.1.stage < i + n := by omega
    simp [this]
  rw [z, List.sum_nil, add_zero]
  have hlt := paired_lt i (xs.take n)
  rw [hl] at hlt
  have g : (paired i (xs.take n)).filterMap (fun x =>
      if decide (x.1.stage < i + n) then some (if x.1.inlet then x.2 else -x.2) else none) =
      (paired i (xs.take n)).map fun x => if x.1.inlet then x.2 else -x.2 := by
    rw [← List.filterMap_eq_map]
    apply List.filterMap_congr
    intro x hx
    simp [hlt x hx]
  rw [g]
  generalize xs.take n = l
  clear g hlt z hl hn
  induction l generalizing i with
  | nil => simp [paired]
  | cons y ys ih =>
    simp only [paired, List.map_append, List.map_map, List.sum_append, ih, List.map_cons, List.sum_cons]
    have s1 : (y.out.map ((fun x : Port × ℚ => if x.1.inlet then x.2 else -x.2) ∘ fun r => ((⟨false, i⟩ : Port), r))).sum
        = -y.out.sum := by
      induction y.out with
      | nil => simp
      | cons a l ih => simp only [List.map_cons, List.sum_cons, ih]; simp; ring
    have s2 : (y.into.map ((fun x : Port × ℚ => if x.1.inlet then x.2 else -x.2) ∘ fun r => ((⟨true, i⟩ : Port), r))).sum
        = y.into.sum := by
      induction y.into with
      | nil => simp
      | cons a l ih => simp only [List.map_cons, List.sum_cons, ih]; simp
    rw [s1, s2, Side.gain]
    ring

/-- Net rate below a stage. -/
theorem net_below (stages : List (StageP σ)) (q : ℚ) (xs : List Side) (h : Fits stages xs) (n : ℕ) (hn : n ≤ xs.length)
    (h0 : 0 < n) : netRate stages (layout q xs) (fun p => decide (p.stage < n)) = through q xs n := by
  unfold netRate through
  have hp := net_paired 0 n xs hn
  simp only [Nat.zero_add] at hp
  rw [zip_ports stages q xs h, List.filterMap_cons]
  simp only [h0, decide_true, if_true, List.sum_cons, hp]

/-- **Negative flow is refused.** The rates are accepted if and only if the flow through no stage is negative: the rate at
the inlet, plus all let in and less all taken out ahead of this stage and those before. -/
theorem C67_nonnegative (stages : List (StageP σ)) (q : ℚ) (xs : List Side) (h : Fits stages xs) :
    nonneg stages (layout q xs) = true ↔ ∀ n, 0 < n → n ≤ stages.length → 0 ≤ through q xs n := by
  have e : ∀ k, (fun p : Port => decide (p.stage ≤ k)) = fun p => decide (p.stage < k + 1) := by
    intro k; funext p; simp [Nat.lt_succ_iff]
  have hl := fits_length h
  simp only [nonneg, List.all_eq_true, List.mem_range, decide_eq_true_eq]
  constructor
  · intro hk n h0 hn
    have := hk (n - 1) (by omega)
    rw [e, show n - 1 + 1 = n by omega, net_below stages q xs h n (by omega) h0] at this
    exact this
  · intro hn k hk
    rw [e, net_below stages q xs h (k + 1) (by omega) (by omega)]
    exact hn (k + 1) (by omega) (by omega)

/-! ## Cutting a train -/

/-- **Rates of the parts.** When a train is cut ahead of a stage, the first part has its inlet and its stages' rates; the
last part has its stages' rates, and what passes through the first part at its inlet. -/
theorem C67_split (stages : List (StageP σ)) (q : ℚ) (xs : List Side) (h : Fits stages xs) (n : ℕ) (h0 : 0 < n)
    (hn : n ≤ stages.length) :
    splitRates stages (layout q xs) n = (layout q (xs.take n), layout (through q xs n) (xs.drop n)) := by
  have hl := fits_length h
  have flat : ∀ (i : ℕ) (l : List Side), (paired i l).map (·.2) = l.flatMap fun x => x.out ++ x.into := by
    intro i l
    induction l generalizing i with
    | nil => rfl
    | cons y ys ih => simp [paired, ih, Function.comp_def]
  have lt : ∀ i, (paired i xs).filterMap (fun x => if x.1.stage < i + n then some x.2 else none) =
      (xs.take n).flatMap fun x => x.out ++ x.into := by
    intro i
    conv_lhs => rw [← List.take_append_drop n xs, paired_append, List.filterMap_append]
    have hlt := paired_lt i (xs.take n)
    have hlen : (xs.take n).length = n := by rw [List.length_take]; omega
    rw [hlen] at hlt ⊢
    have hge := paired_ge (i + n) (xs.drop n)
    have z : (paired (i + n) (xs.drop n)).filterMap (fun x => if x.1.stage < i + n then some x.2 else none) = [] := by
      rw [List.filterMap_eq_nil_iff]
      intro x hx
      have := hge x hx
      simp; omega
    rw [z, List.append_nil, ← flat i, ← List.filterMap_eq_map]
    apply List.filterMap_congr
    intro x hx
    simp [hlt x hx]
  have ge : ∀ i, (paired i xs).filterMap (fun x => if i + n ≤ x.1.stage then some x.2 else none) =
      (xs.drop n).flatMap fun x => x.out ++ x.into := by
    intro i
    conv_lhs => rw [← List.take_append_drop n xs, paired_append, List.filterMap_append]
    have hlt := paired_lt i (xs.take n)
    have hlen : (xs.take n).length = n := by rw [List.length_take]; omega
    rw [hlen] at hlt ⊢
    have hge := paired_ge (i + n) (xs.drop n)
    have z : (paired i (xs.take n)).filterMap (fun x => if i + n ≤ x.1.stage then some x.2 else none) = [] := by
      rw [List.filterMap_eq_nil_iff]
      intro x hx
      have := hlt x hx
      simp; omega
    rw [z, List.nil_append, ← flat (i + n), ← List.filterMap_eq_map]
    apply List.filterMap_congr
    intro x hx
    simp [hge x hx]
  have l0 := lt 0
  have g0 := ge 0
  simp only [Nat.zero_add] at l0 g0
  have hn0 : ¬ n ≤ 0 := by omega
  unfold splitRates
  rw [net_below stages q xs h n (by omega) h0, zip_ports stages q xs h, List.filterMap_cons, List.filterMap_cons]
  simp only [h0, if_true, hn0, if_false, l0, g0, layout]

/-- Flow through a stage of the last part. -/
theorem through_drop (q : ℚ) (xs : List Side) (n m : ℕ) :
    through (through q xs n) (xs.drop n) m = through q xs (n + m) := by
  unfold through
  rw [List.take_add, List.map_append, List.sum_append]
  ring

/-- **Flows of the parts.** Each stage has the same flow in its part as in the whole train, and the whole train accepts the
rates if and only if both parts do. -/
theorem C67_parts (stages : List (StageP σ)) (q : ℚ) (xs : List Side) (h : Fits stages xs) (n : ℕ) (h0 : 0 < n)
    (hn : n ≤ stages.length) :
    (∀ k, k ≤ n → through q (xs.take n) k = through q xs k) ∧
    (∀ k, through (through q xs n) (xs.drop n) k = through q xs (n + k)) ∧
    (nonneg stages (layout q xs) = true ↔
      nonneg (stages.take n) (splitRates stages (layout q xs) n).1 = true ∧
      nonneg (stages.drop n) (splitRates stages (layout q xs) n).2 = true) := by
  have t1 : ∀ k, k ≤ n → through q (xs.take n) k = through q xs k := by
    intro k hk
    unfold through
    rw [List.take_take, min_eq_left hk]
  refine ⟨t1, through_drop q xs n, ?_⟩
  rw [C67_split stages q xs h n h0 hn, C67_nonnegative _ _ _ h, C67_nonnegative _ _ _ (fits_take h n),
    C67_nonnegative _ _ _ (fits_drop h n)]
  simp only [List.length_take, List.length_drop, through_drop]
  constructor
  · intro hw
    refine ⟨fun k hk hk' => ?_, fun k hk hk' => hw (n + k) (by omega) (by omega)⟩
    rw [t1 k (by omega)]
    exact hw k hk (by omega)
  · rintro ⟨a, b⟩ k hk hk'
    rcases Nat.lt_or_ge n k with hlt | hge
    · have := b (k - n) (by omega) (by omega)
      rwa [show n + (k - n) = k by omega] at this
    · rw [← t1 k hge]
      exact a k hk (by omega)

/-! ## Running a train that is cut -/

theorem runStages_append (speed : ℚ) (rates : ℕ → List ℚ × List ℚ) (k : ℕ) (a b : List (StageP σ)) (m1 m2 : List Mod)
    (hm : m1.length = a.length) (x y : σ)
    (hy : y = (((runStages speed rates k a m1 x).getLast?).map (·.out)).getD x) :
    runStages speed rates k (a ++ b) (m1 ++ m2) x =
      runStages speed rates k a m1 x ++ runStages speed rates (k + a.length) b m2 y := by
  induction a generalizing k m1 x y with
  | nil =>
    cases m1 with
    | nil => simp [runStages] at hy ⊢; rw [hy]
    | cons _ _ => simp at hm
  | cons s rest ih =>
    cases m1 with
    | nil => simp at hm
    | cons m ms =>
      simp only [List.cons_append, runStages, List.headD_cons, List.tail_cons, List.cons.injEq, true_and]
      rw [ih (k + 1) ms (by simpa using hm) _ y]
      · simp only [List.length_cons, show k + 1 + rest.length = k + (rest.length + 1) by omega]
      · rw [hy]
        simp only [runStages, List.headD_cons, List.tail_cons]
        cases hl : (runStages speed rates (k + 1) rest ms (s.run speed m (some (rates k)) x).out) with
        | nil => simp
        | cons z zs =>
          rw [List.getLast?_cons_cons]
          have : ((z :: zs).getLast?).isSome := by simp
          obtain ⟨w, hw⟩ := Option.isSome_iff_exists.mp this
          rw [hw]
          rfl

theorem runStages_congr (speed : ℚ) (r1 r2 : ℕ → List ℚ × List ℚ) (stages : List (StageP σ)) (mods : List Mod) (x : σ)
    (i j : ℕ) (h : ∀ k < stages.length, r1 (i + k) = r2 (j + k)) :
    runStages speed r1 i stages mods x = runStages speed r2 j stages mods x := by
  induction stages generalizing mods x i j with
  | nil => rfl
  | cons s rest ih =>
    have h0 := h 0 (by simp)
    simp only [Nat.add_zero] at h0
    simp only [runStages, h0, List.cons.injEq, true_and]
    apply ih
    intro k hk
    have := h (k + 1) (by simp; omega)
    rwa [show i + 1 + k = i + (k + 1) by omega, show j + 1 + k = j + (k + 1) by omega]

/-- **A cut train is the train.** Cut a train ahead of a stage. At one speed and with the same settings, the stages of the
first part and then those of the last part, which starts from the pressure that the first part delivers, run as they do in
the whole train, if making a stream of the fluid that leaves the first part at its pressure and rate gives that stream. -/
theorem C67_cut (p : Plant σ) (densityOf : σ → ℚ → ℚ) (speed : ℚ) (m1 m2 : List Mod) (suction target : ℚ)
    (c1 c2 : Option Control) (q : ℚ) (xs : List Side) (h : Fits p.stages xs) (n : ℕ) (h0 : 0 < n) (hn : n ≤ p.stages.length)
    (hm : m1.length = n) (target1 : ℚ) (last : Stg σ)
    (hlast : ((p.firstPart n c1).calc speed m1
      ⟨suction, target1, none, (splitRates p.stages (layout q xs) n).1⟩).stages.getLast? = some last)
    (hre : p.reinlet last.out last.pout (through q xs n) = last.out) :
    (p.calc speed (m1 ++ m2) ⟨suction, target, none, layout q xs⟩).stages =
      ((p.firstPart n c1).calc speed m1 ⟨suction, target1, none, (splitRates p.stages (layout q xs) n).1⟩).stages ++
      ((p.lastPart densityOf n c2 last.out).calc speed m2
        ⟨last.pout, target, none, (splitRates p.stages (layout q xs) n).2⟩).stages := by
  rw [C67_split p.stages q xs h n h0 hn] at *
  have hl := fits_length h
  simp only [Plant.calc, Plant.firstPart, Plant.lastPart] at hlast ⊢
  have hd : (layout q (xs.take n)).headD 0 = q := rfl
  have hd2 : (layout (through q xs n) (xs.drop n)).headD 0 = through q xs n := rfl
  have hd3 : (layout q xs).headD 0 = q := rfl
  rw [hd] at hlast ⊢
  rw [hd2, hd3, hre]
  have take_get : ∀ k, k < n → (xs.take n)[k]? = xs[k]? := by
    intro k hk; rw [List.getElem?_take]; simp [hk]
  have first : runStages speed (fun k => (ratesOut (p.stages.take n) (layout q (xs.take n)) k,
        ratesIn (p.stages.take n) (layout q (xs.take n)) k)) 0 (p.stages.take n) m1 (p.inlet suction q) =
      runStages speed (fun k => (ratesOut p.stages (layout q xs) k, ratesIn p.stages (layout q xs) k)) 0
        (p.stages.take n) m1 (p.inlet suction q) := by
    apply runStages_congr
    intro k hk
    rw [List.length_take] at hk
    have hk' : k < xs.length := by omega
    obtain ⟨x, hx⟩ : ∃ x, xs[k]? = some x := ⟨xs[k], List.getElem?_eq_getElem hk'⟩
    obtain ⟨a1, a2⟩ := C67_streams p.stages q xs h k x hx
    obtain ⟨b1, b2⟩ := C67_streams (p.stages.take n) q (xs.take n) (fits_take h n) k x
      (by rw [take_get k (by omega)]; exact hx)
    simp only [Nat.zero_add, a1, a2, b1, b2]
  have second : runStages speed (fun k => (ratesOut (p.stages.drop n) (layout (through q xs n) (xs.drop n)) k,
        ratesIn (p.stages.drop n) (layout (through q xs n) (xs.drop n)) k)) 0 (p.stages.drop n) m2 last.out =
      runStages speed (fun k => (ratesOut p.stages (layout q xs) k, ratesIn p.stages (layout q xs) k)) n
        (p.stages.drop n) m2 last.out := by
    apply runStages_congr
    intro k hk
    rw [List.length_drop] at hk
    have hk' : n + k < xs.length := by omega
    obtain ⟨x, hx⟩ : ∃ x, xs[n + k]? = some x := ⟨xs[n + k], List.getElem?_eq_getElem hk'⟩
    obtain ⟨a1, a2⟩ := C67_streams p.stages q xs h (n + k) x hx
    obtain ⟨b1, b2⟩ := C67_streams (p.stages.drop n) (through q xs n) (xs.drop n) (fits_drop h n) k x
      (by rw [List.getElem?_drop]; exact hx)
    simp only [Nat.zero_add, a1, a2, b1, b2]
  rw [first] at hlast ⊢
  rw [second]
  have hlen : (p.stages.take n).length = n := by rw [List.length_take]; omega
  have := runStages_append speed (fun k => (ratesOut p.stages (layout q xs) k, ratesIn p.stages (layout q xs) k)) 0
    (p.stages.take n) (p.stages.drop n) m1 m2 (by omega) (p.inlet suction q) last.out (by rw [hlast]; rfl)
  rw [List.take_append_drop, hlen, Nat.zero_add] at this
  exact this

/-- **When a train runs.** A train is run if and only if something enters it, at its inlet or between the stages; what is
taken out does not count. -/
theorem C67_running (stages : List (StageP σ)) (q : ℚ) (xs : List Side) (h : Fits stages xs) :
    anyIngoing stages (layout q xs) = true ↔ 0 < q ∨ ∃ x ∈ xs, ∃ r ∈ x.into, 0 < r := by
  have key : ∀ i (xs : List Side), (paired i xs).any (fun x => x.1.inlet && decide (0 < x.2)) = true ↔
      ∃ x ∈ xs, ∃ r ∈ x.into, 0 < r := by
    intro i xs
    induction xs generalizing i with
    | nil => simp [paired]
    | cons x xs ih =>
      simp only [paired, List.any_append, Bool.or_eq_true, ih, List.mem_cons, exists_eq_or_imp]
      simp
  unfold anyIngoing
  rw [zip_ports stages q xs h]
  simp only [List.any_cons, Bool.true_and, Bool.or_eq_true, decide_eq_true_eq, key]

/-- **No result without flow.** A train whose stages all have flow that is not negative returns no result if and only if
nothing enters it. -/
theorem C67_idle (p : Plant σ) (root : Root) (densityOf : σ → ℚ → ℚ) (up down : Option Control) (st st' : State)
    (inp : Input) (o : Option (Res σ)) (q : ℚ) (xs : List Side) (h : Fits p.stages xs) (hr : inp.rates = layout q xs)
    (he : p.evaluate root densityOf up down st inp = .ok (o, st')) :
    o = none ↔ q ≤ 0 ∧ ∀ x ∈ xs, ∀ r ∈ x.into, r ≤ 0 := by
  have hrun := C67_running p.stages q xs h
  rw [← hr] at hrun
  have hneg : (q ≤ 0 ∧ ∀ x ∈ xs, ∀ r ∈ x.into, r ≤ 0) ↔ ¬ anyIngoing p.stages inp.rates = true := by
    rw [hrun]; push Not; rfl
  rw [hneg]
  unfold Plant.evaluate at he
  simp only at he
  split at he
  · cases he
  · split at he
    · rename_i ha
      simp only [ha, not_true, iff_false]
      rintro rfl
      split at he
      · split at he
        · cases he
        · split at he
          · cases he
          · generalize p.twoPressures root densityOf _ up down p.fresh inp _ = z at he
            cases z <;> cases he
      · split at he
        · cases he
        · split at he
          · cases he
          · split at he
            · cases he
            · generalize p.controlled root _ inp = z at he
              cases z <;> cases he
    · rename_i ha
      cases he
      simp [ha]

/-! ## Examples -/

/-- A stage that multiplies the pressure by the speed and adds what comes in and goes out; a stream is pressure and rate. -/
def toy (outs ins : ℕ) : StageP (ℚ × ℚ) :=
  { minSpeed := 1, maxSpeed := 3, minRate := fun v => v, maxRate := fun v => 10 * v, outs := outs, ins := ins, drop := 0
    run := fun v m r x =>
      let rate := x.2 - ((r.map (·.1.sum)).getD 0) + ((r.map (·.2.sum)).getD 0)
      let asv := match m with
        | .none => rate
        | .mass a => rate + a
        | .fraction f => rate + f * (10 * v - rate)
      ⟨x.1, x.1 * (v + 1) - asv / 10, 1, rate, max asv v, asv * v, if asv ≤ 10 * v then .internal else .aboveFlow,
        decide (asv ≤ 10 * v), (x.1 * (v + 1) - asv / 10, rate)⟩ }

/-- A train of three such stages: something is let in ahead of the second, something is taken out ahead of the third. -/
def three : Plant (ℚ × ℚ) :=
  { stages := [toy 0 0, toy 0 1, toy 1 0], inlet := fun p q => (p, q), reinlet := fun _ p q => (p, q), massOf := fun x => x.2
    density := fun _ => 1, std := 1, ratio := fun _ _ _ => 2, control := none, maxPower := none, maxDischarge := none
    interstage := some 2 }

def sides : List Side := [⟨[], []⟩, ⟨[], [3]⟩, ⟨[2], []⟩]

example : Fits three.stages sides := rfl
example : layout 5 sides = [5, 3, 2] := rfl
example : splitRates three.stages [5, 3, 2] 2 = ([5, 3], [8, 2]) := by decide +kernel
example : through 5 sides 2 = 8 ∧ through 5 sides 3 = 6 := by decide +kernel
example : nonneg three.stages [5, 3, 2] = true ∧ nonneg three.stages [5, 3, 9] = false := by decide +kernel
example : ratesIn three.stages [5, 3, 2] 1 = [3] ∧ ratesIn three.stages [5, 3, 2] 0 = [] ∧
    ratesOut three.stages [5, 3, 2] 2 = [2] := by decide +kernel
example : (three.calc 2 [.none, .none, .none] ⟨10, 200, none, [5, 3, 2]⟩).stages.map (·.pout) =
    ((three.firstPart 2 none).calc 2 [.none, .none] ⟨10, 50, none, [5, 3]⟩).stages.map (·.pout) ++
      ((three.lastPart (fun _ _ => 1) 2 none (0, 0)).calc 2 [.none]
        ⟨((three.firstPart 2 none).calc 2 [.none, .none] ⟨10, 50, none, [5, 3]⟩).pout, 200, none, [8, 2]⟩).stages.map
          (·.pout) := by decide +kernel

/-- Nothing enters, something is taken out: negative flow, an error; nothing at all: no result. -/
example : anyIngoing three.stages [0, 3, 2] = true ∧ anyIngoing three.stages [0, 0, 2] = false ∧
    nonneg three.stages [0, 0, 2] = false := by decide +kernel

end Verif.C67
