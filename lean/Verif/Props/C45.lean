import Verif.Model.Shafts
import Mathlib.Tactic.Linarith

/-!
# C45: shaft speeds
-/

namespace Verif.C45
open Verif.Process Verif.Shafts

/-! ## Specification -/

/-- The speed an operation asks for, if it is a request this shaft understands. -/
def asks (id : Nat) : Op → Option ℚ
  | .set v => some v
  | .configure h (.speed v) => if h = id then some v else none
  | _ => none

/-- Nothing but connecting. -/
def isConnect : Op → Bool
  | .connect _ => true
  | _ => false

def isReset : Op → Bool
  | .reset => true
  | _ => false

/-- A shaft as the mappers make it: no speed and no compressors. -/
def fresh (id : Nat) (single : Bool) (speeds : Nat → Option ℚ) : World := ⟨⟨id, single, none, []⟩, speeds⟩

/-! ## Lemmas -/

theorem applied (cs : List Nat) (s : Nat → Option ℚ) (v : ℚ) (d : Nat) :
    cs.foldl (fun s c => setCompressor s c v) s d = if d ∈ cs then some v else s d := by
  induction cs generalizing s with
  | nil => simp
  | cons c cs ih =>
    simp only [List.foldl_cons]
    rw [ih]
    by_cases h : d ∈ cs
    · simp [h]
    · by_cases hc : d = c <;> simp [h, hc, setCompressor]

theorem setSpeed_ok (w w' : World) (v : ℚ) (h : setSpeed w v = .ok w') :
    (w' = apply w v ∧ (w.shaft.single = true → w.shaft.speed = none)) ∨
    (w' = w ∧ w.shaft.speed = some v ∧ w.shaft.single = true) := by
  unfold setSpeed at h
  split at h
  · rename_i hs
    cases hsp : w.shaft.speed with
    | none =>
      rw [hsp] at h
      cases h
      exact Or.inl ⟨rfl, fun _ => rfl⟩
    | some u =>
      rw [hsp] at h
      simp only at h
      split at h
      · cases h
      · rename_i hvu
        cases h
        rw [ne_eq, not_not] at hvu
        exact Or.inr ⟨rfl, by rw [hvu], hs⟩
  · rename_i hs
    cases h
    exact Or.inl ⟨rfl, fun hx => absurd hx hs⟩

/-- What a step can do. -/
theorem step_cases (w w' : World) (op : Op) (h : step w op = .ok w') :
    (∃ c, op = .connect c ∧ c ∉ w.shaft.compressors ∧
      w' = ⟨{ w.shaft with compressors := w.shaft.compressors ++ [c] }, w.speeds⟩) ∨
    (∃ v, asks w.shaft.id op = some v ∧ setSpeed w v = .ok w') ∨
    (op = .reset ∧ w' = ⟨{ w.shaft with speed := none }, w.speeds⟩) := by
  cases op with
  | connect c =>
    simp only [step] at h
    split at h
    · cases h
    · rename_i hc
      cases h
      exact Or.inl ⟨c, rfl, by simpa using hc, rfl⟩
  | set v => exact Or.inr (Or.inl ⟨v, rfl, h⟩)
  | configure hd v =>
    simp only [step] at h
    split at h
    · cases h
    · rename_i hh
      rw [ne_eq, not_not] at hh
      cases v with
      | speed s => exact Or.inr (Or.inl ⟨s, by simp [asks, hh], h⟩)
      | choke => cases h
      | temperature => cases h
      | recirculation => cases h
  | reset =>
    cases h
    exact Or.inr (Or.inr ⟨rfl, rfl⟩)

theorem setSpeed_shape (w w' : World) (v : ℚ) (h : setSpeed w v = .ok w') :
    w'.shaft.id = w.shaft.id ∧ w'.shaft.single = w.shaft.single ∧ w'.shaft.compressors = w.shaft.compressors ∧
    w'.shaft.speed = some v := by
  rcases setSpeed_ok w w' v h with ⟨rfl, -⟩ | ⟨rfl, h2, -⟩
  · exact ⟨rfl, rfl, rfl, rfl⟩
  · exact ⟨rfl, rfl, rfl, h2⟩

theorem step_id (w w' : World) (op : Op) (h : step w op = .ok w') :
    w'.shaft.id = w.shaft.id ∧ w'.shaft.single = w.shaft.single := by
  rcases step_cases w w' op h with ⟨c, -, -, rfl⟩ | ⟨v, -, hs⟩ | ⟨-, rfl⟩
  · exact ⟨rfl, rfl⟩
  · exact ⟨(setSpeed_shape w w' v hs).1, (setSpeed_shape w w' v hs).2.1⟩
  · exact ⟨rfl, rfl⟩

/-- Induction over runs. -/
theorem run_ind (P : World → Prop) (ops : List Op) (hstep : ∀ w w' op, op ∈ ops → step w op = .ok w' → P w → P w')
    (w : World) (h : P w) : P (run w ops) := by
  induction ops generalizing w with
  | nil => exact h
  | cons op ops ih =>
    unfold run
    cases hs : step w op with
    | ok w' =>
      exact ih (fun w w' o ho => hstep w w' o (by simp [ho])) w' (hstep w w' op (by simp) hs h)
    | error e => exact ih (fun w w' o ho => hstep w w' o (by simp [ho])) w h

theorem run_id (w : World) (ops : List Op) :
    (run w ops).shaft.id = w.shaft.id ∧ (run w ops).shaft.single = w.shaft.single := by
  refine run_ind (fun x => x.shaft.id = w.shaft.id ∧ x.shaft.single = w.shaft.single) ops ?_ w ⟨rfl, rfl⟩
  intro a b op _ hs ⟨h1, h2⟩
  obtain ⟨g1, g2⟩ := step_id a b op hs
  exact ⟨g1.trans h1, g2.trans h2⟩

theorem maxOf_spec (m : ℚ) (l : List ℚ) (v : ℚ) : maxOf m l ≤ v ↔ m ≤ v ∧ ∀ x ∈ l, x ≤ v := by
  induction l generalizing m with
  | nil => simp [maxOf]
  | cons x l ih =>
    simp only [maxOf, List.forall_mem_cons]
    rw [ih]
    split
    · rename_i h
      constructor
      · rintro ⟨h1, h2⟩
        exact ⟨by linarith, h1, h2⟩
      · rintro ⟨-, h1, h2⟩
        exact ⟨h1, h2⟩
    · rename_i h
      constructor
      · rintro ⟨h1, h2⟩
        exact ⟨h1, by linarith [not_lt.mp h], h2⟩
      · rintro ⟨h1, -, h2⟩
        exact ⟨h1, h2⟩

theorem minOf_spec (m : ℚ) (l : List ℚ) (v : ℚ) : v ≤ minOf m l ↔ v ≤ m ∧ ∀ x ∈ l, v ≤ x := by
  induction l generalizing m with
  | nil => simp [minOf]
  | cons x l ih =>
    simp only [minOf, List.forall_mem_cons]
    rw [ih]
    split
    · rename_i h
      constructor
      · rintro ⟨h1, h2⟩
        exact ⟨by linarith, h1, h2⟩
      · rintro ⟨-, h1, h2⟩
        exact ⟨h1, h2⟩
    · rename_i h
      constructor
      · rintro ⟨h1, h2⟩
        exact ⟨h1, by linarith [not_lt.mp h], h2⟩
      · rintro ⟨h1, -, h2⟩
        exact ⟨h1, h2⟩

/-! ## The property -/

/-- **The allowed range.** A speed lies in the range of a shaft exactly when it lies in the range of every compressor
on it; a shaft without compressors raises an error instead. -/
theorem C45_range (least greatest : Nat → ℚ) (s : Shaft) :
    (s.compressors = [] → speedBoundary least greatest s = .error .value) ∧
    (s.compressors ≠ [] → ∃ lo hi, speedBoundary least greatest s = .ok (lo, hi) ∧
      (∀ v, (lo ≤ v ∧ v ≤ hi) ↔ ∀ c ∈ s.compressors, least c ≤ v ∧ v ≤ greatest c) ∧
      (∃ c ∈ s.compressors, lo = least c) ∧ (∃ c ∈ s.compressors, hi = greatest c)) := by
  have hmax : ∀ (m : ℚ) (l : List ℚ), maxOf m l ∈ m :: l := by
    intro m l
    induction l generalizing m with
    | nil => simp [maxOf]
    | cons x l ih =>
      simp only [maxOf]
      have := ih (if m < x then x else m)
      rw [List.mem_cons] at this ⊢
      rcases this with h | h
      · rw [h]
        split <;> simp
      · right; right; exact h
  have hmin : ∀ (m : ℚ) (l : List ℚ), minOf m l ∈ m :: l := by
    intro m l
    induction l generalizing m with
    | nil => simp [minOf]
    | cons x l ih =>
      simp only [minOf]
      have := ih (if x < m then x else m)
      rw [List.mem_cons] at this ⊢
      rcases this with h | h
      · rw [h]
        split <;> simp
      · right; right; exact h
  unfold speedBoundary
  cases hcs : s.compressors with
  | nil => simp
  | cons c cs =>
    refine ⟨by simp, fun _ => ⟨_, _, rfl, ?_, ?_, ?_⟩⟩
    · intro v
      rw [maxOf_spec, minOf_spec]
      simp only [List.forall_mem_cons, List.forall_mem_map]
      constructor
      · rintro ⟨⟨a, b⟩, c, d⟩
        exact ⟨⟨a, c⟩, fun x hx => ⟨b x hx, d x hx⟩⟩
      · rintro ⟨⟨a, c⟩, h⟩
        exact ⟨⟨a, fun x hx => (h x hx).1⟩, c, fun x hx => (h x hx).2⟩
    · have := hmax (least c) (cs.map least)
      rw [← List.map_cons, List.mem_map] at this
      obtain ⟨d, hd, he⟩ := this
      exact ⟨d, hd, he.symm⟩
    · have := hmin (greatest c) (cs.map greatest)
      rw [← List.map_cons, List.mem_map] at this
      obtain ⟨d, hd, he⟩ := this
      exact ⟨d, hd, he.symm⟩

/-- **When a speed is accepted.** A variable-speed shaft accepts every speed. A single-speed shaft accepts a speed
exactly when none is set or it is the one set; otherwise it raises an error. -/
theorem C45_accepts (w : World) (v : ℚ) :
    ((∃ w', setSpeed w v = .ok w') ↔ (w.shaft.single = true → ∀ u, w.shaft.speed = some u → u = v)) ∧
    (∀ e, setSpeed w v = .error e → e = .attribute) := by
  unfold setSpeed
  cases hs : w.shaft.single with
  | false => simp
  | true =>
    simp only [if_true]
    cases hsp : w.shaft.speed with
    | none => simp
    | some u =>
      simp only
      by_cases h : v = u
      · simp [h]
      · simp [h, Ne.symm h]

/-- **One speed for all.** After a history in which all compressors are connected before anything else happens, the
shaft and every compressor on it have the same speed whenever the shaft has one, for both kinds of shaft; other
compressors keep the speed they had. -/
theorem C45_shared (id : Nat) (single : Bool) (speeds : Nat → Option ℚ) (conns ops : List Op)
    (hc : ∀ op ∈ conns, isConnect op = true) (ho : ∀ op ∈ ops, isConnect op = false) :
    (∀ v, (run (run (fresh id single speeds) conns) ops).shaft.speed = some v →
      ∀ c ∈ (run (run (fresh id single speeds) conns) ops).shaft.compressors,
        (run (run (fresh id single speeds) conns) ops).speeds c = some v) ∧
    (∀ c, c ∉ (run (run (fresh id single speeds) conns) ops).shaft.compressors →
      (run (run (fresh id single speeds) conns) ops).speeds c = speeds c) := by
  have h1 : (run (fresh id single speeds) conns).shaft.speed = none ∧
      (run (fresh id single speeds) conns).speeds = speeds := by
    refine run_ind (fun x => x.shaft.speed = none ∧ x.speeds = speeds) conns ?_ _ ⟨rfl, rfl⟩
    intro a b op hop hs ⟨h1, h2⟩
    have hco := hc op hop
    rcases step_cases a b op hs with ⟨c, -, -, rfl⟩ | ⟨v, ha, -⟩ | ⟨rfl, -⟩
    · exact ⟨h1, h2⟩
    · cases op <;> simp [asks, isConnect] at ha hco
    · cases hco
  have h2 := run_ind (fun x => (∀ v, x.shaft.speed = some v → ∀ c ∈ x.shaft.compressors, x.speeds c = some v) ∧
      ∀ c, c ∉ x.shaft.compressors → x.speeds c = speeds c) ops (by
    intro a b op hop hs ⟨i1, i2⟩
    rcases step_cases a b op hs with ⟨c, rfl, -, -⟩ | ⟨v, -, hset⟩ | ⟨-, rfl⟩
    · cases ho _ hop
    · rcases setSpeed_ok a b v hset with ⟨rfl, -⟩ | ⟨rfl, -, -⟩
      · constructor
        · intro u hu c hcm
          simp only [apply] at hu hcm ⊢
          rw [applied, if_pos hcm]
          exact hu
        · intro c hcm
          simp only [apply] at hcm ⊢
          rw [applied, if_neg hcm]
          exact i2 c hcm
      · exact ⟨i1, i2⟩
    · refine ⟨?_, i2⟩
      intro v hv
      cases hv) (run (fresh id single speeds) conns) ⟨by rw [h1.1]; simp, by rw [h1.2]; simp⟩
  exact h2

/-- **A request reaches every compressor.** Whatever happened before, an accepted request to a variable-speed shaft
leaves the shaft and all compressors on it with the requested speed. -/
theorem C45_variable_sets (id : Nat) (speeds : Nat → Option ℚ) (ops : List Op) (op : Op) (v : ℚ)
    (ha : asks id op = some v) :
    ∃ w', step (run (fresh id false speeds) ops) op = .ok w' ∧ w'.shaft.speed = some v ∧
      w'.shaft.compressors = (run (fresh id false speeds) ops).shaft.compressors ∧
      (∀ c ∈ w'.shaft.compressors, w'.speeds c = some v) := by
  obtain ⟨g1, g2⟩ := run_id (fresh id false speeds) ops
  generalize run (fresh id false speeds) ops = w at *
  simp only [fresh] at g1 g2
  have hset : setSpeed w v = .ok (apply w v) := by
    unfold setSpeed
    rw [g2]
    rfl
  refine ⟨apply w v, ?_, rfl, rfl, ?_⟩
  · cases op with
    | set u => cases ha; exact hset
    | configure h x =>
      cases x with
      | speed u =>
        simp only [asks] at ha
        split at ha
        · rename_i hh
          cases ha
          simp only [step]
          rw [if_neg (by simp [hh, g1])]
          exact hset
        · cases ha
      | choke => cases ha
      | temperature => cases ha
      | recirculation => cases ha
    | connect => cases ha
    | reset => cases ha
  · intro c hcm
    simp only [apply] at hcm ⊢
    rw [applied, if_pos hcm]

/-- **A single-speed shaft keeps its speed.** Once it has a speed, no sequence of operations without a reset changes
that speed or the speed of any compressor. -/
theorem C45_single_keeps (w : World) (v : ℚ) (hs : w.shaft.single = true) (hv : w.shaft.speed = some v)
    (ops : List Op) (hr : ∀ op ∈ ops, isReset op = false) :
    (run w ops).shaft.speed = some v ∧ (run w ops).speeds = w.speeds := by
  have := run_ind (fun x => x.shaft.single = true ∧ x.shaft.speed = some v ∧ x.speeds = w.speeds) ops (by
    intro a b op hop hst ⟨i1, i2, i3⟩
    rcases step_cases a b op hst with ⟨c, -, -, rfl⟩ | ⟨u, -, hset⟩ | ⟨rfl, -⟩
    · exact ⟨i1, i2, i3⟩
    · rcases setSpeed_ok a b u hset with ⟨-, hno⟩ | ⟨rfl, -, -⟩
      · have := hno i1
        rw [i2] at this
        cases this
      · exact ⟨i1, i2, i3⟩
    · cases hr _ hop) w ⟨hs, hv, rfl⟩
  exact this.2

/-- **No compressor twice.** In every history each compressor is on the shaft at most once; connecting one again raises
an error. -/
theorem C45_connect (id : Nat) (single : Bool) (speeds : Nat → Option ℚ) (ops : List Op) (c : Nat) :
    (run (fresh id single speeds) ops).shaft.compressors.Nodup ∧
    (c ∈ (run (fresh id single speeds) ops).shaft.compressors →
      step (run (fresh id single speeds) ops) (.connect c) = .error .programming) ∧
    (c ∈ (run (fresh id single speeds) ops).shaft.compressors ↔ Op.connect c ∈ ops) := by
  refine ⟨?_, ?_, ?_⟩
  · refine run_ind (fun x => x.shaft.compressors.Nodup) ops ?_ _ List.nodup_nil
    intro a b op _ hs i
    rcases step_cases a b op hs with ⟨d, -, hd, rfl⟩ | ⟨u, -, hset⟩ | ⟨-, rfl⟩
    · simp only
      rw [List.nodup_append]
      refine ⟨i, by simp, ?_⟩
      intro x hx y hy
      rw [List.mem_singleton] at hy
      rintro rfl
      rw [hy] at hx
      exact hd hx
    · rw [(setSpeed_shape a b u hset).2.2.1]
      exact i
    · exact i
  · intro hm
    simp [step, hm]
  · have gen : ∀ (w : World), c ∈ (run w ops).shaft.compressors ↔ c ∈ w.shaft.compressors ∨ Op.connect c ∈ ops := by
      induction ops with
      | nil => intro w; simp [run]
      | cons op ops ih =>
        intro w
        unfold run
        cases hs : step w op with
        | error e =>
          simp only
          rw [ih w]
          constructor
          · rintro (h | h)
            · exact Or.inl h
            · exact Or.inr (by simp [h])
          · rintro (h | h)
            · exact Or.inl h
            · rw [List.mem_cons] at h
              rcases h with rfl | h
              · simp only [step] at hs
                split at hs
                · rename_i hc
                  exact Or.inl (by simpa using hc)
                · cases hs
              · exact Or.inr h
        | ok w' =>
          simp only
          rw [ih w', List.mem_cons]
          rcases step_cases w w' op hs with ⟨d, rfl, hd, rfl⟩ | ⟨u, ha, hset⟩ | ⟨rfl, rfl⟩
          · simp only [List.mem_append, List.mem_singleton, Op.connect.injEq]
            tauto
          · rw [(setSpeed_shape w w' u hset).2.2.1]
            have : Op.connect c ≠ op := by
              rintro rfl
              cases ha
            simp [this]
          · simp
    rw [gen]
    simp [fresh]

/-! ## Findings and examples -/

def charts1 : Nat → ℚ := fun c => if c = 1 then 100 else 300
def charts2 : Nat → ℚ := fun c => if c = 1 then 200 else 400

/-- **Finding.** The range can be empty (least above greatest) without an error: two compressors without a common
speed. -/
theorem C45_empty_range : ∃ lo hi, speedBoundary charts1 charts2 ⟨7, false, none, [1, 2]⟩ = .ok (lo, hi) ∧ hi < lo := by
  refine ⟨300, 200, ?_, by norm_num⟩
  decide +kernel

/-- **Finding.** A compressor connected to a single-speed shaft after the speed was set never gets a speed, not even by
setting the same speed again. -/
theorem C45_late_compressor (id : Nat) (speeds : Nat → Option ℚ) (h : speeds 2 = none) (v : ℚ) :
    (run (fresh id true speeds) [.connect 1, .set v, .connect 2, .set v]).speeds 2 = none ∧
    (run (fresh id true speeds) [.connect 1, .set v, .connect 2, .set v]).shaft.compressors = [1, 2] := by
  simp [run, step, setSpeed, fresh, apply, setCompressor, h]

example : (run (fresh 7 false (fun _ => none)) [.connect 1, .connect 2, .set 50, .configure 7 (.speed 60)]).speeds 2 =
    some 60 := by decide +kernel
example : (run (fresh 7 true (fun _ => none)) [.connect 1, .set 50, .configure 7 (.speed 60)]).speeds 1 =
    some 50 := by decide +kernel
example : (run (fresh 7 true (fun _ => none)) [.connect 1, .set 50, .reset, .set 60]).speeds 1 =
    some 60 := by decide +kernel

end Verif.C45
