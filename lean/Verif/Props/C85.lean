import Verif.Model.Numbers
import Mathlib.Algebra.Order.Field.Power
import Mathlib.Tactic.Linarith
import Mathlib.Tactic.Positivity
import Mathlib.Tactic.FieldSimp
import Mathlib.Tactic.Ring
import Mathlib.Tactic.NormNum

/-!
# C85 Numbers in reports

Everything is said about `shown p x`, the number that a reader of the text sees.
-/

namespace Verif.C85
open Verif.Numbers

/-- `v` can be written with `n` decimals. -/
def Grid (n : ℕ) (v : ℚ) : Prop := ∃ k : ℤ, v * 10 ^ n = k

/-- A text without unnecessary digits: proper digits, no trailing zero. -/
def Tidy (t : Numeral) : Prop := (∀ d ∈ t.decimals, d < 10) ∧ t.decimals.getLast? ≠ some 0

/-- The number that is seen in the text for `x`. -/
def Shown (p : ℤ) (x v : ℚ) : Prop := ∃ t, format x p = .ok t ∧ t.value = v

/-! ## Rounding to an integer -/

theorem half_cases (q : ℚ) : halfEven q = ⌊q⌋ ∨ halfEven q = ⌊q⌋ + 1 := by
  unfold halfEven; split_ifs <;> simp

theorem half_error (q : ℚ) : |(halfEven q : ℚ) - q| ≤ 1 / 2 := by
  have h1 := Int.floor_le q
  have h2 := Int.lt_floor_add_one q
  unfold halfEven
  rw [abs_le]
  split_ifs with a b c <;> push_cast <;> constructor <;> linarith

theorem half_int (k : ℤ) : halfEven k = k := by
  unfold halfEven; simp

theorem half_mono {q r : ℚ} (h : q ≤ r) : halfEven q ≤ halfEven r := by
  have hf := Int.floor_le_floor h
  rcases lt_or_eq_of_le hf with hlt | heq
  · have : halfEven q ≤ ⌊q⌋ + 1 := by rcases half_cases q with h | h <;> omega
    have : ⌊r⌋ ≤ halfEven r := by rcases half_cases r with h | h <;> omega
    omega
  · unfold halfEven
    rw [← heq]
    split_ifs <;> first | omega | (exfalso; linarith)

theorem half_nonneg {q : ℚ} (h : 0 ≤ q) : 0 ≤ halfEven q := by
  have := half_mono h
  have h0 : halfEven 0 = 0 := by have := half_int 0; simpa using this
  omega

theorem half_zero {q : ℚ} (h : 0 ≤ q) : halfEven q = 0 ↔ q ≤ 1 / 2 := by
  constructor
  · intro h0
    have := half_error q
    rw [h0] at this
    rw [abs_le] at this
    push_cast at this
    linarith [this.1]
  · intro hq
    have hf : ⌊q⌋ = 0 := by rw [Int.floor_eq_iff]; constructor <;> push_cast <;> linarith
    unfold halfEven
    rw [hf]
    push_cast
    split_ifs with a b
    · rfl
    · exfalso; linarith
    · rfl

/-! ## The text -/

theorem trim_value (ds : List ℕ) : (trim ds).foldr (fun (d : ℕ) (v : ℚ) => (d + v) / 10) 0 =
    ds.foldr (fun (d : ℕ) (v : ℚ) => (d + v) / 10) 0 := by
  induction ds with
  | nil => rfl
  | cons d ds ih =>
    unfold trim
    split_ifs with h
    · rw [h.1] at ih
      simp only [List.foldr_cons, List.foldr_nil] at ih ⊢
      rw [← ih, h.2]; simp
    · simp only [List.foldr_cons, ih]

theorem trim_mem {ds : List ℕ} {d : ℕ} (h : d ∈ trim ds) : d ∈ ds := by
  induction ds with
  | nil => exact h
  | cons e ds ih =>
    unfold trim at h
    split_ifs at h
    · cases h
    · rcases List.mem_cons.mp h with rfl | h
      · simp
      · exact List.mem_cons_of_mem _ (ih h)

theorem trim_length (ds : List ℕ) : (trim ds).length ≤ ds.length := by
  induction ds with
  | nil => simp [trim]
  | cons e ds ih => unfold trim; split_ifs <;> simp; exact ih

theorem trim_last (ds : List ℕ) : (trim ds).getLast? ≠ some 0 := by
  induction ds with
  | nil => simp [trim]
  | cons e ds ih =>
    unfold trim
    split_ifs with h
    · simp
    · cases ht : trim ds with
      | nil =>
        rw [ht] at h
        simp at h ⊢
        exact h
      | cons a l => rw [ht] at ih; rwa [List.getLast?_cons_cons]

theorem digits_length (n r : ℕ) : (digits n r).length = n := by
  induction n with
  | zero => rfl
  | succ n ih => simp [digits, ih]

theorem digits_lt {n r d : ℕ} (h : d ∈ digits n r) : d < 10 := by
  induction n with
  | zero => cases h
  | succ n ih =>
    rcases List.mem_cons.mp h with rfl | h
    · omega
    · exact ih h

theorem digits_value (n r : ℕ) : (digits n r).foldr (fun (d : ℕ) (v : ℚ) => (d + v) / 10) 0 =
    ((r % 10 ^ n : ℕ) : ℚ) / 10 ^ n := by
  induction n with
  | zero => simp [digits, Nat.mod_one]
  | succ n ih =>
    simp only [digits, List.foldr_cons, ih]
    have e : r % 10 ^ (n + 1) = r % 10 ^ n + 10 ^ n * (r / 10 ^ n % 10) := by
      rw [pow_succ, Nat.mod_mul]
    rw [e]
    push_cast
    field_simp
    ring

theorem trim_zero (n : ℕ) : trim (digits n 0) = [] := by
  induction n with
  | zero => rfl
  | succ n ih => simp [digits, trim, ih]

theorem positional_value (x : ℚ) (n : ℕ) :
    (positional x n).value = (if x < 0 then -1 else 1) * (halfEven (|x| * 10 ^ n) : ℚ) / 10 ^ n := by
  have h0 : 0 ≤ halfEven (|x| * 10 ^ n) := half_nonneg (by positivity)
  obtain ⟨m, hm⟩ := Int.eq_ofNat_of_zero_le h0
  unfold positional Numeral.value
  simp only [hm, Int.toNat_natCast, decide_eq_true_eq]
  rw [trim_value, digits_value]
  have e : (m : ℚ) = ((m / 10 ^ n : ℕ) : ℚ) * 10 ^ n + ((m % 10 ^ n : ℕ) : ℚ) := by
    have := Nat.div_add_mod m (10 ^ n)
    have h2 : ((10 ^ n * (m / 10 ^ n) + m % 10 ^ n : ℕ) : ℚ) = m := by rw [this]
    rw [← h2]
    push_cast
    ring
  rw [Nat.mod_mod]
  have h3 : ((m / 10 ^ n : ℕ) : ℚ) + ((m % 10 ^ n : ℕ) : ℚ) / 10 ^ n = (m : ℚ) / 10 ^ n := by
    rw [e]; field_simp
  rw [h3, mul_div_assoc]
  simp

/-! ## How many decimals -/

theorem pow_split {a : ℤ} (ha : 0 ≤ a) : ∃ k : ℕ, a = k ∧ (10 : ℚ) ^ a = ((10 ^ k : ℕ) : ℚ) := by
  obtain ⟨k, rfl⟩ := Int.eq_ofNat_of_zero_le ha
  exact ⟨k, rfl, by push_cast; rw [zpow_natCast]⟩

theorem precision_le (x : ℚ) (p : ℤ) : newPrecision x p ≤ p.toNat := by
  unfold newPrecision
  simp only
  split_ifs with h1 h2
  · exact le_refl _
  · omega
  · omega

/-- The unsigned result. -/
def mag (p : ℤ) (x : ℚ) : ℚ :=
  if x ≤ (10 : ℚ) ^ (-p - 1) then 0 else (halfEven (x * 10 ^ newPrecision x p) : ℚ) / 10 ^ newPrecision x p

theorem newPrecision_abs (x : ℚ) (p : ℤ) : newPrecision |x| p = newPrecision x p := by
  unfold newPrecision; rw [abs_abs]

theorem shown_iff {p : ℤ} (hp : -1 ≤ p) (x v : ℚ) : Shown p x v ↔ v = (if x < 0 then -1 else 1) * mag p |x| := by
  have key : ∀ t : Numeral, (∃ u, (Except.ok t : Except NErr Numeral) = .ok u ∧ u.value = v) ↔ v = t.value := by
    intro t
    constructor
    · rintro ⟨u, h, rfl⟩; cases Except.ok.inj h; rfl
    · rintro rfl; exact ⟨t, rfl, rfl⟩
  unfold Shown format mag
  rw [if_neg (not_lt.mpr hp), newPrecision_abs]
  by_cases h1 : |x| ≤ (10 : ℚ) ^ (-p - 1)
  · rw [if_pos h1, if_pos h1, key]
    simp [Numeral.value]
  · rw [if_neg h1, if_neg h1, key, positional_value, mul_div_assoc]

theorem grid_fix {n : ℕ} {b x : ℚ} (hb : Grid n b) (h : b ≤ x) : b ≤ (halfEven (x * 10 ^ n) : ℚ) / 10 ^ n := by
  obtain ⟨k, hk⟩ := hb
  rw [le_div_iff₀ (by positivity), hk]
  have : k ≤ halfEven (x * 10 ^ n) := by
    rw [← half_int k]
    apply half_mono
    rw [← hk]
    exact mul_le_mul_of_nonneg_right h (by positivity)
  exact_mod_cast this

theorem grid_fix' {n : ℕ} {b x : ℚ} (hb : Grid n b) (h : x ≤ b) : (halfEven (x * 10 ^ n) : ℚ) / 10 ^ n ≤ b := by
  obtain ⟨k, hk⟩ := hb
  rw [div_le_iff₀ (by positivity), hk]
  have : halfEven (x * 10 ^ n) ≤ k := by
    rw [← half_int k]
    apply half_mono
    rw [← hk]
    exact mul_le_mul_of_nonneg_right h (by positivity)
  exact_mod_cast this

theorem grid_int (n : ℕ) (k : ℤ) : Grid n k := ⟨k * 10 ^ n, by push_cast; ring⟩

theorem grid_pow (n : ℕ) {a : ℤ} (ha : 0 ≤ a) : Grid n ((10 : ℚ) ^ a) := by
  obtain ⟨k, -, h⟩ := pow_split ha
  rw [h]
  exact_mod_cast grid_int n (10 ^ k : ℕ)

theorem grid_half (n : ℕ) (x : ℚ) : Grid n ((halfEven (x * 10 ^ n) : ℚ) / 10 ^ n) :=
  ⟨halfEven (x * 10 ^ n), by field_simp⟩

theorem grid_eq {n : ℕ} {b : ℚ} (hb : Grid n b) : (halfEven (b * 10 ^ n) : ℚ) / 10 ^ n = b :=
  le_antisymm (grid_fix' hb (le_refl _)) (grid_fix hb (le_refl _))

theorem thr_pos (p : ℤ) : (0 : ℚ) < (10 : ℚ) ^ (-p - 1) := by positivity

theorem log_le {x : ℚ} (hx : 0 < x) : (10 : ℚ) ^ Int.log 10 x ≤ x := by
  have := Int.zpow_log_le_self (b := 10) (by norm_num) hx; exact_mod_cast this

theorem lt_log (x : ℚ) : x < (10 : ℚ) ^ (Int.log 10 x + 1) := by
  have := Int.lt_zpow_succ_log_self (b := 10) (by norm_num) x; exact_mod_cast this

theorem log_neg_iff {x : ℚ} (hx : 0 < x) : Int.log 10 x < 0 ↔ x < 1 := by
  have := Int.lt_zpow_iff_log_lt (b := 10) (x := 0) (by norm_num) hx
  rw [← this]; simp

theorem mag_nonneg {p : ℤ} {x : ℚ} (hx : 0 ≤ x) : 0 ≤ mag p x := by
  unfold mag
  split_ifs
  · exact le_refl _
  · have := half_nonneg (q := x * 10 ^ newPrecision x p) (by positivity)
    have : (0 : ℚ) ≤ halfEven (x * 10 ^ newPrecision x p) := by exact_mod_cast this
    positivity

theorem mag_mono {p : ℤ} {x y : ℚ} (hx : 0 ≤ x) (h : x ≤ y) : mag p x ≤ mag p y := by
  by_cases h1 : x ≤ (10 : ℚ) ^ (-p - 1)
  · have : mag p x = 0 := by unfold mag; rw [if_pos h1]
    rw [this]; exact mag_nonneg (le_trans hx h)
  have h2 : ¬ y ≤ (10 : ℚ) ^ (-p - 1) := by intro h'; exact h1 (le_trans h h')
  have hx0 : 0 < x := lt_trans (thr_pos p) (not_le.mp h1)
  have hy0 : 0 < y := lt_of_lt_of_le hx0 h
  unfold mag
  rw [if_neg h1, if_neg h2]
  by_cases hn : newPrecision x p = newPrecision y p
  · rw [hn]
    apply div_le_div_of_nonneg_right _ (by positivity)
    exact_mod_cast half_mono (mul_le_mul_of_nonneg_right h (by positivity))
  · have hl : Int.log 10 x ≤ Int.log 10 y := Int.log_mono_right hx0 h
    have hlt : Int.log 10 x < Int.log 10 y := by
      rcases lt_or_eq_of_le hl with h' | h'
      · exact h'
      · exfalso; apply hn; unfold newPrecision; rw [abs_of_pos hx0, abs_of_pos hy0, h']
    have hly : 0 ≤ Int.log 10 y := by
      by_contra hc
      apply hn
      unfold newPrecision
      rw [abs_of_pos hx0, abs_of_pos hy0]
      simp only [if_pos (show Int.log 10 x < 0 by omega), if_pos (show Int.log 10 y < 0 by omega)]
    have b1 : x ≤ (10 : ℚ) ^ Int.log 10 y :=
      le_trans (lt_log x).le (zpow_le_zpow_right₀ (by norm_num) (by omega))
    exact le_trans (grid_fix' (grid_pow _ hly) b1) (grid_fix (grid_pow _ hly) (log_le hy0))

/-- A result that is already on the grid of its own decimals is not changed. -/
theorem mag_fix {p : ℤ} {v : ℚ} (h1 : ¬ v ≤ (10 : ℚ) ^ (-p - 1)) (hg : Grid (newPrecision v p) v) : mag p v = v := by
  unfold mag; rw [if_neg h1]; exact grid_eq hg

theorem thr_lt {p : ℤ} (hp : 0 ≤ p) : (10 : ℚ) ^ (-p - 1) < 1 :=
  zpow_lt_one_of_neg₀ (by norm_num) (by omega)

theorem thr_half (p : ℤ) : (10 : ℚ) ^ (-p - 1) ≤ 1 / 2 * (10 : ℚ) ^ (-p) := by
  rw [zpow_sub₀ (by norm_num)]
  have : (0 : ℚ) < (10 : ℚ) ^ (-p) := by positivity
  rw [zpow_one]
  linarith

theorem newPrecision_small {x : ℚ} {p : ℤ} (hx : 0 < x) (h : x < 1) : newPrecision x p = p.toNat := by
  unfold newPrecision
  rw [abs_of_pos hx]
  simp only [if_pos ((log_neg_iff hx).mpr h)]

theorem mag_idem {p : ℤ} (hp : 0 ≤ p) {x : ℚ} (hx : 0 ≤ x) : mag p (mag p x) = mag p x := by
  by_cases h1 : x ≤ (10 : ℚ) ^ (-p - 1)
  · have e : mag p x = 0 := by unfold mag; rw [if_pos h1]
    rw [e]; unfold mag; rw [if_pos (thr_pos p).le]
  have hx0 : 0 < x := lt_trans (thr_pos p) (not_le.mp h1)
  have e : mag p x = (halfEven (x * 10 ^ newPrecision x p) : ℚ) / 10 ^ newPrecision x p := by
    unfold mag; rw [if_neg h1]
  have hg := grid_half (newPrecision x p) x
  rw [← e] at hg
  have hv0 := mag_nonneg (p := p) hx
  rcases lt_or_ge x 1 with hx1 | hx1
  · rw [newPrecision_small hx0 hx1] at e hg
    have hv1 : mag p x ≤ 1 := by
      rw [e]; have := grid_fix' (n := p.toNat) (grid_int _ 1) (x := x) (by push_cast; linarith); simpa using this
    rcases eq_or_lt_of_le hv0 with hz | hz
    · rw [← hz]; unfold mag; rw [if_pos (thr_pos p).le]
    · -- at least one unit of the last decimal
      have hthr : ¬ mag p x ≤ (10 : ℚ) ^ (-p - 1) := by
        obtain ⟨k, hk⟩ := hg
        have hkpos : 0 < k := by
          have : (0 : ℚ) < k := by rw [← hk]; positivity
          exact_mod_cast this
        have hk1 : (1 : ℚ) ≤ k := by exact_mod_cast hkpos
        intro hc
        have hpp : (10 : ℚ) ^ p.toNat = (10 : ℚ) ^ p := by
          rw [← zpow_natCast, Int.toNat_of_nonneg hp]
        have h3 : mag p x * 10 ^ p.toNat ≤ (10 : ℚ) ^ (-p - 1) * (10 : ℚ) ^ p := by
          rw [hpp]; exact mul_le_mul_of_nonneg_right hc (by positivity)
        rw [← zpow_add₀ (by norm_num), hk] at h3
        have : (10 : ℚ) ^ (-p - 1 + p) < 1 := zpow_lt_one_of_neg₀ (by norm_num) (by omega)
        linarith
      apply mag_fix hthr
      rcases lt_or_eq_of_le hv1 with h' | h'
      · rw [newPrecision_small hz h']; exact hg
      · rw [h']; exact_mod_cast grid_int _ 1
  · have hl : 0 ≤ Int.log 10 x := by
      have := (log_neg_iff hx0).not.mpr (not_lt.mpr hx1); omega
    have b0 : (10 : ℚ) ^ Int.log 10 x ≤ mag p x := by rw [e]; exact grid_fix (grid_pow _ hl) (log_le hx0)
    have b1 : mag p x ≤ (10 : ℚ) ^ (Int.log 10 x + 1) := by
      rw [e]; exact grid_fix' (grid_pow _ (by omega)) (lt_log x).le
    have hone : (1 : ℚ) ≤ (10 : ℚ) ^ Int.log 10 x := one_le_zpow₀ (by norm_num) hl
    have hvp : 0 < mag p x := by linarith
    apply mag_fix (not_le.mpr (lt_of_lt_of_le (thr_lt hp) (le_trans hone b0)))
    rcases lt_or_eq_of_le b1 with h' | h'
    · have hlog : Int.log 10 (mag p x) = Int.log 10 x := by
        have l1 : Int.log 10 (mag p x) < Int.log 10 x + 1 := by
          rw [← Int.lt_zpow_iff_log_lt (b := 10) (by norm_num) hvp]; exact_mod_cast h'
        have l2 : Int.log 10 x ≤ Int.log 10 (mag p x) := by
          rw [← Int.zpow_le_iff_le_log (b := 10) (by norm_num) hvp]; exact_mod_cast b0
        omega
      have : newPrecision (mag p x) p = newPrecision x p := by
        unfold newPrecision; rw [abs_of_pos hvp, abs_of_pos hx0, hlog]
      rw [this]; exact hg
    · rw [h']; exact grid_pow _ (by omega)

theorem mag_error {p : ℤ} (hp : 0 ≤ p) {x : ℚ} (hx : 0 ≤ x) : |mag p x - x| ≤ max 1 x * (1 / 2 * (10 : ℚ) ^ (-p)) := by
  have hpos : (0 : ℚ) < (10 : ℚ) ^ (-p) := by positivity
  have hm : (1 : ℚ) ≤ max 1 x := le_max_left _ _
  by_cases h1 : x ≤ (10 : ℚ) ^ (-p - 1)
  · have e : mag p x = 0 := by unfold mag; rw [if_pos h1]
    rw [e, zero_sub, abs_neg, abs_of_nonneg hx]
    have := thr_half p
    nlinarith
  have hx0 : 0 < x := lt_trans (thr_pos p) (not_le.mp h1)
  have e : mag p x = (halfEven (x * 10 ^ newPrecision x p) : ℚ) / 10 ^ newPrecision x p := by
    unfold mag; rw [if_neg h1]
  have hb : |mag p x - x| ≤ 1 / 2 / 10 ^ newPrecision x p := by
    have := half_error (x * 10 ^ newPrecision x p)
    rw [e, le_div_iff₀ (by positivity), ← abs_of_pos (show (0 : ℚ) < 10 ^ newPrecision x p by positivity), ← abs_mul,
      abs_of_pos (show (0 : ℚ) < 10 ^ newPrecision x p by positivity), sub_mul, div_mul_cancel₀ _ (by positivity)]
    exact this
  refine le_trans hb ?_
  -- the unit of the last decimal
  suffices hs : 1 / (10 : ℚ) ^ newPrecision x p ≤ max 1 x * (10 : ℚ) ^ (-p) by
    have : 1 / 2 / (10 : ℚ) ^ newPrecision x p = 1 / 2 * (1 / (10 : ℚ) ^ newPrecision x p) := by ring
    rw [this]; linarith
  have hz : 1 / (10 : ℚ) ^ newPrecision x p = (10 : ℚ) ^ (-(newPrecision x p : ℤ)) := by
    rw [zpow_neg, zpow_natCast, one_div]
  rw [hz]
  rcases lt_or_ge x 1 with hx1 | hx1
  · rw [newPrecision_small hx0 hx1, Int.toNat_of_nonneg hp]
    nlinarith
  · have hl : 0 ≤ Int.log 10 x := by
      have := (log_neg_iff hx0).not.mpr (not_lt.mpr hx1); omega
    have hle : (10 : ℚ) ^ (-(newPrecision x p : ℤ)) ≤ (10 : ℚ) ^ (Int.log 10 x + -p) := by
      apply zpow_le_zpow_right₀ (by norm_num)
      unfold newPrecision
      rw [abs_of_pos hx0]
      simp only
      split_ifs <;> omega
    rw [zpow_add₀ (by norm_num)] at hle
    have : (10 : ℚ) ^ Int.log 10 x * (10 : ℚ) ^ (-p) ≤ max 1 x * (10 : ℚ) ^ (-p) :=
      mul_le_mul_of_nonneg_right (le_trans (log_le hx0) (le_max_right _ _)) hpos.le
    linarith

theorem mag_zero {p : ℤ} (hp : 0 ≤ p) {x : ℚ} (_hx : 0 ≤ x) : mag p x = 0 ↔ x ≤ 1 / 2 * (10 : ℚ) ^ (-p) := by
  by_cases h1 : x ≤ (10 : ℚ) ^ (-p - 1)
  · have e : mag p x = 0 := by unfold mag; rw [if_pos h1]
    rw [e]
    exact iff_of_true rfl (le_trans h1 (thr_half p))
  have hx0 : 0 < x := lt_trans (thr_pos p) (not_le.mp h1)
  have e : mag p x = (halfEven (x * 10 ^ newPrecision x p) : ℚ) / 10 ^ newPrecision x p := by
    unfold mag; rw [if_neg h1]
  have hpp : (10 : ℚ) ^ p.toNat = (10 : ℚ) ^ p := by
    rw [← zpow_natCast, Int.toNat_of_nonneg hp]
  have hle1 : (10 : ℚ) ^ (-p) ≤ 1 := zpow_le_one_of_nonpos₀ (by norm_num) (by omega)
  rcases lt_or_ge x 1 with hx1 | hx1
  · rw [e, newPrecision_small hx0 hx1, div_eq_zero_iff]
    have : (10 : ℚ) ^ p.toNat ≠ 0 := by positivity
    simp only [this, or_false]
    rw [Int.cast_eq_zero, half_zero (by positivity), hpp, zpow_neg, ← div_eq_mul_inv, le_div_iff₀ (show (0 : ℚ) < 10 ^ p by positivity)]
  · have hl : 0 ≤ Int.log 10 x := by
      have := (log_neg_iff hx0).not.mpr (not_lt.mpr hx1); omega
    have b0 : (1 : ℚ) ≤ mag p x := by
      rw [e]
      exact_mod_cast grid_fix (b := ((1 : ℤ) : ℚ)) (grid_int _ 1) (by push_cast; exact hx1)
    constructor <;> intro h' <;> linarith

theorem mag_int {p : ℤ} (hp : 0 ≤ p) (k : ℕ) : mag p k = k := by
  cases k with
  | zero => unfold mag; rw [if_pos (by push_cast; exact (thr_pos p).le)]; rfl
  | succ k =>
    apply mag_fix
    · rw [not_le]
      have := thr_lt hp
      have : (1 : ℚ) ≤ ((k + 1 : ℕ) : ℚ) := by push_cast; linarith [(Nat.cast_nonneg k : (0 : ℚ) ≤ k)]
      linarith
    · exact_mod_cast grid_int _ ((k + 1 : ℕ) : ℤ)

/-! ## Theorems -/

/-- **A text, always.** Every precision from −1 on is accepted and gives one text; only smaller ones are refused. -/
theorem C85_total (p : ℤ) (x : ℚ) : (∃ v, Shown p x v) ↔ -1 ≤ p := by
  constructor
  · rintro ⟨v, t, h, -⟩
    by_contra hc
    unfold format at h
    rw [if_pos (by omega)] at h
    cases h
  · intro hp
    exact ⟨_, (shown_iff hp x _).mpr rfl⟩

/-- **Close to the number.** The number shown differs from the number by at most half of the unit `10 ^ -p`, relative
to the number when this is above one. -/
theorem C85_error (p : ℤ) (hp : 0 ≤ p) (x v : ℚ) (h : Shown p x v) :
    |v - x| ≤ max 1 |x| * (1 / 2 * (10 : ℚ) ^ (-p)) := by
  rw [shown_iff (by omega)] at h
  have := mag_error hp (abs_nonneg x)
  rw [h]
  split_ifs with hx
  · rw [abs_of_neg hx] at this ⊢
    have e : -1 * mag p (-x) - x = -(mag p (-x) - -x) := by ring
    rw [e, abs_neg]; exact this
  · rw [abs_of_nonneg (not_lt.mp hx)] at this ⊢
    rw [one_mul]; exact this

/-- **Order is kept.** A larger number is never shown as a smaller one. -/
theorem C85_order (p : ℤ) (x y v w : ℚ) (hx : Shown p x v) (hy : Shown p y w) (h : x ≤ y) : v ≤ w := by
  have hp := (C85_total p x).mp ⟨v, hx⟩
  rw [shown_iff hp] at hx hy
  rw [hx, hy]
  split_ifs with h1 h2 h2
  · rw [abs_of_neg h1, abs_of_neg h2]
    have := mag_mono (p := p) (x := -y) (y := -x) (by linarith) (by linarith)
    linarith
  · have a := mag_nonneg (p := p) (abs_nonneg x)
    have b := mag_nonneg (p := p) (abs_nonneg y)
    linarith
  · linarith
  · rw [abs_of_nonneg (not_lt.mp h1), abs_of_nonneg (not_lt.mp h2)]
    have := mag_mono (p := p) (not_lt.mp h1) h
    linarith

/-- **Signs.** A number and its negative are shown with the same digits. -/
theorem C85_odd (p : ℤ) (x v : ℚ) (h : Shown p x v) : Shown p (-x) (-v) := by
  have hp := (C85_total p x).mp ⟨v, h⟩
  rw [shown_iff hp] at h ⊢
  rw [h, abs_neg]
  rcases lt_trichotomy x 0 with hx | rfl | hx
  · rw [if_pos hx, if_neg (by linarith)]; ring
  · simp [mag, (thr_pos p).le]
  · rw [if_neg (by linarith), if_pos (by linarith)]; ring

/-- **Rounding twice is rounding once.** -/
theorem C85_idempotent (p : ℤ) (hp : 0 ≤ p) (x v : ℚ) (h : Shown p x v) : Shown p v v := by
  rw [shown_iff (by omega)] at h ⊢
  have h0 := mag_nonneg (p := p) (abs_nonneg x)
  have hi := mag_idem hp (abs_nonneg x)
  by_cases hx : x < 0
  · rw [if_pos hx] at h
    rw [h]
    rcases eq_or_lt_of_le h0 with hz | hz
    · rw [← hz] at hi ⊢; simp [hi]
    · rw [if_pos (by linarith), neg_one_mul, abs_neg, abs_of_pos hz, hi]; ring
  · rw [if_neg hx, one_mul] at h
    rw [h, if_neg (by linarith), abs_of_nonneg h0, hi, one_mul]

/-- **Whole numbers are shown in full**, however large, and without decimals. -/
theorem C85_integers (p : ℤ) (hp : 0 ≤ p) (k : ℤ) :
    Shown p k k ∧ ∀ t, format k p = .ok t → t.decimals = [] := by
  constructor
  · rw [shown_iff (by omega)]
    have e : ((k.natAbs : ℕ) : ℚ) = |(k : ℚ)| := Nat.cast_natAbs k |>.trans (Int.cast_abs ..)
    rw [← e, mag_int hp, e]
    split_ifs with h
    · rw [abs_of_neg h]; ring
    · rw [abs_of_nonneg (not_lt.mp h)]; ring
  · intro t h
    unfold format at h
    split_ifs at h
    · cases Except.ok.inj h; rfl
    · cases Except.ok.inj h
      unfold positional
      simp only
      generalize newPrecision (k : ℚ) p = n
      have e : |(k : ℚ)| * 10 ^ n = (((k.natAbs * 10 ^ n : ℕ) : ℤ) : ℚ) := by
        rw [← Int.cast_abs, Int.abs_eq_natAbs]; push_cast; ring
      rw [e, half_int, Int.toNat_natCast, Nat.mul_mod_left]
      exact trim_zero n

/-- **Tidy.** At most `p` decimals, fewer the larger the number is; proper digits and no trailing zeros. -/
theorem C85_tidy (p : ℤ) (x : ℚ) (t : Numeral) (h : format x p = .ok t) :
    Tidy t ∧ t.decimals.length ≤ p.toNat ∧
    (∀ k : ℕ, (10 : ℚ) ^ k ≤ |x| → t.decimals.length ≤ p.toNat - k) := by
  unfold format at h
  split_ifs at h with h1 h2
  · cases Except.ok.inj h
    exact ⟨⟨by simp, by simp⟩, by simp, by simp⟩
  · cases Except.ok.inj h
    have hl : (positional x (newPrecision x p)).decimals.length ≤ newPrecision x p := by
      unfold positional
      simp only
      refine le_trans (trim_length _) ?_
      rw [digits_length]
    refine ⟨⟨fun d hd => digits_lt (trim_mem hd), trim_last _⟩, le_trans hl (precision_le x p), ?_⟩
    intro k hk
    refine le_trans hl ?_
    have hx0 : 0 < |x| := lt_of_lt_of_le (by positivity) hk
    have hlog : (k : ℤ) ≤ Int.log 10 |x| := by
      rw [← Int.zpow_le_iff_le_log (b := 10) (by norm_num) hx0]
      rw [zpow_natCast]; exact_mod_cast hk
    unfold newPrecision
    simp only
    split_ifs <;> omega

/-- **What is shown as zero.** Exactly the numbers up to half of the last decimal; not, as the documentation says, all
numbers below the last decimal. -/
theorem C85_zero (p : ℤ) (hp : 0 ≤ p) (x : ℚ) : Shown p x 0 ↔ |x| ≤ 1 / 2 * (10 : ℚ) ^ (-p) := by
  rw [shown_iff (by omega), ← mag_zero hp (abs_nonneg x)]
  split_ifs <;> constructor <;> intro h <;> linarith

/-- **Deviation: minus zero.** A negative number between a tenth and half of the last decimal is shown as `-0`. -/
theorem C85_minus_zero (p : ℤ) (hp : 0 ≤ p) (x : ℚ) (h1 : x < -(10 : ℚ) ^ (-p - 1)) (h2 : -(1 / 2 * (10 : ℚ) ^ (-p)) ≤ x) :
    ∃ t, format x p = .ok t ∧ t.text = "-0" := by
  have hx0 : x < 0 := by linarith [thr_pos p]
  have habs : |x| = -x := abs_of_neg hx0
  have hle1 : (10 : ℚ) ^ (-p) ≤ 1 := zpow_le_one_of_nonpos₀ (by norm_num) (by omega)
  have hpp : (10 : ℚ) ^ p.toNat = (10 : ℚ) ^ p := by
    rw [← zpow_natCast, Int.toNat_of_nonneg hp]
  refine ⟨positional x (newPrecision x p), ?_, ?_⟩
  · unfold format
    rw [if_neg (by omega), if_neg (by rw [habs, not_le]; linarith)]
  · have hz : halfEven (|x| * 10 ^ newPrecision x p) = 0 := by
      rw [← newPrecision_abs, newPrecision_small (by rw [habs]; linarith) (by rw [habs]; linarith), half_zero (by positivity),
        hpp, habs]
      have : (0 : ℚ) < 10 ^ p := by positivity
      rw [zpow_neg] at h2
      have h3 : -x ≤ 1 / 2 / 10 ^ p := by rw [div_eq_mul_inv]; linarith
      rwa [le_div_iff₀ this] at h3
    unfold positional
    rw [hz]
    simp only [Int.toNat_zero, Nat.zero_div, Nat.zero_mod, trim_zero, Numeral.text, hx0, decide_true, if_true]
    rfl

/-- **Deviation: precision −1.** It is accepted, although the message says that a precision has to be at least 0, and
then one is shown as zero while every other whole number is shown in full. -/
theorem C85_minus_one (k : ℤ) : Shown (-1) k (if |k| ≤ 1 then 0 else k) := by
  rw [shown_iff (le_refl _)]
  have hc : |(k : ℚ)| = ((|k| : ℤ) : ℚ) := by rw [Int.cast_abs]
  by_cases h : |k| ≤ 1
  · rw [if_pos h]
    have : mag (-1) |(k : ℚ)| = 0 := by
      unfold mag
      rw [if_pos]
      rw [hc]; norm_num; exact_mod_cast h
    rw [this, mul_zero]
  · rw [if_neg h]
    have hm : mag (-1) |(k : ℚ)| = |(k : ℚ)| := by
      apply mag_fix
      · rw [hc]; norm_num; exact_mod_cast not_le.mp h
      · rw [hc]; exact grid_int _ _
    rw [hm]
    split_ifs with hk
    · rw [abs_of_neg hk]; ring
    · rw [abs_of_nonneg (not_lt.mp hk)]; ring

/-- **Sums.** The sum of the numbers shown is as close to the sum of the numbers as the single errors allow. -/
theorem C85_sum (p : ℤ) (hp : 0 ≤ p) (xs vs : List ℚ) (h : List.Forall₂ (Shown p) xs vs) :
    |vs.sum - xs.sum| ≤ (xs.map fun x => max 1 |x|).sum * (1 / 2 * (10 : ℚ) ^ (-p)) := by
  induction h with
  | nil => simp
  | @cons x v xs vs h _ ih =>
    simp only [List.sum_cons, List.map_cons]
    have e : v + vs.sum - (x + xs.sum) = (v - x) + (vs.sum - xs.sum) := by ring
    rw [e, add_mul]
    exact le_trans (abs_add_le _ _) (add_le_add (C85_error p hp x v h) ih)

/-! ### Results -/

/-- A step into a result: an index or a key. -/
inductive Step
  | index (i : ℕ)
  | key (k : String)

/-- The leaf at the end of a path: a number or something else. -/
def leaf : List Step → Tree → Option (ℚ ⊕ String)
  | [], .num x => some (.inl x)
  | [], .other s => some (.inr s)
  | .index i :: path, .list ts => match ts[i]? with
    | some t => leaf path t
    | none => none
  | .key k :: path, .dict ts => match ts.find? (fun q => q.1 == k) with
    | some q => leaf path q.2
    | none => none
  | _, _ => none

/-- What should stand where `a` stood. -/
def Became (p : ℤ) : Option (ℚ ⊕ String) → Option (ℚ ⊕ String) → Prop
  | none, b => b = none
  | some (.inr s), b => b = some (.inr s)
  | some (.inl x), b => ∃ v, Shown p x v ∧ b = some (.inl v)

theorem round_list {p : ℤ} : ∀ {ts ts' : List Tree}, roundList p ts = .ok ts' →
    ∀ i : ℕ, (ts[i]? = none ∧ ts'[i]? = none) ∨ ∃ t t', ts[i]? = some t ∧ ts'[i]? = some t' ∧ t.round p = .ok t' := by
  intro ts
  induction ts with
  | nil => intro ts' h i; rw [roundList] at h; cases Except.ok.inj h; simp
  | cons t ts ih =>
    intro ts' h i
    rw [roundList] at h
    cases h1 : t.round p with
    | error e => rw [h1] at h; cases h
    | ok t' =>
      rw [h1] at h
      simp only at h
      cases h2 : roundList p ts with
      | error e => rw [h2] at h; cases h
      | ok us =>
        rw [h2] at h
        cases Except.ok.inj h
        cases i with
        | zero => exact .inr ⟨t, t', rfl, rfl, h1⟩
        | succ i => simpa using ih h2 i

theorem round_dict {p : ℤ} : ∀ {ts ts' : List (String × Tree)}, roundDict p ts = .ok ts' →
    ts'.map (·.1) = ts.map (·.1) ∧
    ∀ k : String, (ts.find? (fun q => q.1 == k) = none ∧ ts'.find? (fun q => q.1 == k) = none) ∨
      ∃ q q', ts.find? (fun q => q.1 == k) = some q ∧ ts'.find? (fun q => q.1 == k) = some q' ∧ q.2.round p = .ok q'.2 := by
  intro ts
  induction ts with
  | nil => intro ts' h; rw [roundDict] at h; cases Except.ok.inj h; simp
  | cons a ts ih =>
    obtain ⟨key, t⟩ := a
    intro ts' h
    rw [roundDict] at h
    cases h1 : t.round p with
    | error e => rw [h1] at h; cases h
    | ok t' =>
      rw [h1] at h
      simp only at h
      cases h2 : roundDict p ts with
      | error e => rw [h2] at h; cases h
      | ok us =>
        rw [h2] at h
        cases Except.ok.inj h
        obtain ⟨i1, i2⟩ := ih h2
        refine ⟨by simp [i1], fun k => ?_⟩
        by_cases hk : key = k
        · right
          exact ⟨(key, t), (key, t'), by simp [hk], by simp [hk], h1⟩
        · have hk' : (key == k) = false := by simp [hk]
          simp only [List.find?_cons, hk']
          exact i2 k

/-- **Only numbers change.** A rounded result has the same leaves in the same places: every number is replaced by the
number shown, everything else is as it was. -/
theorem C85_result (p : ℤ) (path : List Step) : ∀ t t' : Tree, t.round p = .ok t' → Became p (leaf path t) (leaf path t') := by
  induction path with
  | nil =>
    intro t t' h
    cases t with
    | num x =>
      rw [Tree.round] at h
      cases hf : format x p with
      | error e => rw [hf] at h; cases h
      | ok n =>
        rw [hf] at h
        cases Except.ok.inj h
        exact ⟨n.value, ⟨n, hf, rfl⟩, rfl⟩
    | other s => rw [Tree.round] at h; cases Except.ok.inj h; rfl
    | list ts =>
      rw [Tree.round] at h
      cases hl : roundList p ts with
      | error e => rw [hl] at h; cases h
      | ok us => rw [hl] at h; cases Except.ok.inj h; rfl
    | dict ts =>
      rw [Tree.round] at h
      cases hl : roundDict p ts with
      | error e => rw [hl] at h; cases h
      | ok us => rw [hl] at h; cases Except.ok.inj h; rfl
  | cons s path ih =>
    intro t t' h
    cases t with
    | num x =>
      rw [Tree.round] at h
      cases hf : format x p with
      | error e => rw [hf] at h; cases h
      | ok n => rw [hf] at h; cases Except.ok.inj h; cases s <;> rfl
    | other o => rw [Tree.round] at h; cases Except.ok.inj h; cases s <;> rfl
    | list ts =>
      rw [Tree.round] at h
      cases hl : roundList p ts with
      | error e => rw [hl] at h; cases h
      | ok us =>
        rw [hl] at h
        cases Except.ok.inj h
        cases s with
        | key k => rfl
        | index i =>
          simp only [leaf]
          rcases round_list hl i with ⟨a, b⟩ | ⟨u, u', a, b, c⟩
          · rw [a, b]; rfl
          · rw [a, b]; exact ih u u' c
    | dict ts =>
      rw [Tree.round] at h
      cases hl : roundDict p ts with
      | error e => rw [hl] at h; cases h
      | ok us =>
        rw [hl] at h
        cases Except.ok.inj h
        cases s with
        | index i => rfl
        | key k =>
          simp only [leaf]
          rcases (round_dict hl).2 k with ⟨a, b⟩ | ⟨u, u', a, b, c⟩
          · rw [a, b]; rfl
          · rw [a, b]; exact ih u.2 u'.2 c

/-! ## Examples -/

example : (format (10003333 / 10000) 6).toOption.map Numeral.text = some "1000.333" := by decide +kernel
example : (format (-9 / 100) 1).toOption.map Numeral.text = some "-0.1" := by decide +kernel
example : (format (100000001) 6).toOption.map Numeral.text = some "100000001" := by decide +kernel
example : (format (6 / 1000) 2).toOption.map Numeral.text = some "0.01" := by decide +kernel
example : (format (-3 / 10000000) 6).toOption.map Numeral.text = some "-0" := by decide +kernel
example : (format 1 (-1)).toOption.map Numeral.text = some "0" := by decide +kernel
/-- Parts that are shown as zero add up to a total that is not. -/
example : Shown 2 (4 / 1000) 0 ∧ Shown 2 (4 / 1000 + 4 / 1000) (1 / 100) := by
  exact ⟨⟨⟨false, 0, []⟩, by decide +kernel, by decide +kernel⟩, ⟨⟨false, 0, [0, 1]⟩, by decide +kernel, by decide +kernel⟩⟩

end Verif.C85
