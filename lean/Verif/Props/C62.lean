import Verif.Props.C58
import Verif.Model.CompressorChart

/-!
# C62: head and efficiency of a compressor at a speed and a rate

Between the curves the chart mixes the neighbouring curves in proportion to the speed, each at the same fraction of its
width; a point is valid exactly when speed and rate are within the limits, or can be brought there by choking and
recirculation.
-/

namespace Verif.C62
open Verif.Time Verif.Table Verif.TableLemmas Verif.Charts Verif.Polyline Verif.C56 Verif.C57 Verif.C58

/-! ## Specification -/

/-- An ordinary chart: different speeds, rates increase along every curve, every curve has a width and reaches a real
flow. -/
structure Sound (ch : Chart) : Prop where
  faster : Faster ch
  increasing : ∀ c ∈ ch.curves, Increasing c
  wide : ∀ c ∈ ch.curves, c.minRate < c.maxRate
  flows : ∀ c ∈ ch.curves, noFlow ≤ c.maxRate

/-- The rate at the fraction `t` of the width of a curve. -/
def along (c : Curve) (t : ℚ) : ℚ := c.minRate + t * (c.maxRate - c.minRate)

/-- Two curves with no other curve between them. -/
def Neighbours (ch : Chart) (b a : Curve) : Prop :=
  b ∈ ch.curves ∧ a ∈ ch.curves ∧ b.speed ≤ a.speed ∧ ∀ k ∈ ch.curves, k.speed ≤ b.speed ∨ a.speed ≤ k.speed

/-- The value of the chart: speed, rate, head and efficiency are all mixed with the same weight from points at the same
fraction of two neighbouring curves. -/
def At (ch : Chart) (speed rate : ℚ) (x : ℚ × ℚ) : Prop :=
  ∃ b a w t, Neighbours ch b a ∧ 0 ≤ w ∧ w ≤ 1 ∧ 0 ≤ t ∧ t ≤ 1 ∧
    speed = w * b.speed + (1 - w) * a.speed ∧
    rate = w * along b t + (1 - w) * along a t ∧
    x.1 = w * b.headAt (along b t) + (1 - w) * a.headAt (along a t) ∧
    x.2 = w * b.effAt (along b t) + (1 - w) * a.effAt (along a t)

/-! ## The specification determines the value -/

theorem along_inj {c : Curve} (h : c.minRate < c.maxRate) {t u : ℚ} (he : along c t = along c u) : t = u := by
  unfold along at he
  have : (t - u) * (c.maxRate - c.minRate) = 0 := by linarith
  rcases mul_eq_zero.mp this with h0 | h0 <;> linarith

/-- A value at the speed of a curve is that of the curve, whichever neighbour is used. -/
theorem at_curve {ch : Chart} (h : Sound ch) {c : Curve} (hc : c ∈ ch.curves) {rate : ℚ} {x : ℚ × ℚ}
    (hx : At ch c.speed rate x) : x = (c.headAt rate, c.effAt rate) := by
  obtain ⟨b, a, w, t, ⟨hb, ha, hba, hn⟩, w0, w1, t0, t1, hs, hr, h1, h2⟩ := hx
  have inj := speed_inj h.faster
  have hcase : (b = c ∧ a = c) ∨ (b = c ∧ w = 1) ∨ (a = c ∧ w = 0) := by
    rcases hn c hc with hl | hl
    · -- the curve is not above `b`
      rcases eq_or_lt_of_le hba with he | hlt
      · have hab := inj b hb a ha he
        subst hab
        have : c.speed = b.speed := by rw [hs]; ring
        have := inj c hc b hb this
        left; exact ⟨this.symm, this.symm⟩
      · right; left
        have hw : w = 1 := by
          by_contra hne
          have : w < 1 := lt_of_le_of_ne w1 hne
          nlinarith
        refine ⟨?_, hw⟩
        rw [hw] at hs
        exact (inj c hc b hb (by linarith)).symm
    · rcases eq_or_lt_of_le hba with he | hlt
      · have hab := inj b hb a ha he
        subst hab
        have : c.speed = b.speed := by rw [hs]; ring
        have := inj c hc b hb this
        left; exact ⟨this.symm, this.symm⟩
      · right; right
        have hw : w = 0 := by
          by_contra hne
          have : 0 < w := lt_of_le_of_ne w0 (Ne.symm hne)
          nlinarith
        refine ⟨?_, hw⟩
        rw [hw] at hs
        exact (inj c hc a ha (by linarith)).symm
  rcases hcase with ⟨rfl, rfl⟩ | ⟨rfl, rfl⟩ | ⟨rfl, rfl⟩
  · have hr' : rate = along a t := by rw [hr]; ring
    rw [hr']
    exact Prod.ext (by rw [h1]; ring) (by rw [h2]; ring)
  · have hr' : rate = along b t := by rw [hr]; ring
    rw [hr']
    exact Prod.ext (by rw [h1]; ring) (by rw [h2]; ring)
  · have hr' : rate = along a t := by rw [hr]; ring
    rw [hr']
    exact Prod.ext (by rw [h1]; ring) (by rw [h2]; ring)

/-- Two pairs of neighbours strictly around the same speed are the same pair. -/
theorem same_pair {ch : Chart} (h : Sound ch) {b a b' a' : Curve} {v : ℚ} (hn : Neighbours ch b a)
    (hn' : Neighbours ch b' a') (h1 : b.speed < v) (h2 : v < a.speed) (h1' : b'.speed < v) (h2' : v < a'.speed) :
    b = b' ∧ a = a' := by
  obtain ⟨hb, ha, -, q⟩ := hn
  obtain ⟨hb', ha', -, q'⟩ := hn'
  have inj := speed_inj h.faster
  constructor
  · apply inj b hb b' hb'
    rcases q b' hb' with x | x
    · rcases q' b hb with y | y
      · linarith
      · linarith
    · linarith
  · apply inj a ha a' ha'
    rcases q a' ha' with x | x
    · linarith
    · rcases q' a ha with y | y
      · linarith
      · linarith

/-- How a value sits among the curves: at a curve, or strictly between two. -/
theorem at_cases {ch : Chart} (h : Sound ch) {v rate : ℚ} {x : ℚ × ℚ} (hx : At ch v rate x) :
    (∃ c ∈ ch.curves, v = c.speed) ∨ ∃ b a w t, Neighbours ch b a ∧ b.speed < v ∧ v < a.speed ∧ 0 < w ∧ w < 1 ∧
      v = w * b.speed + (1 - w) * a.speed ∧ 0 ≤ t ∧ t ≤ 1 ∧ rate = w * along b t + (1 - w) * along a t ∧
      x.1 = w * b.headAt (along b t) + (1 - w) * a.headAt (along a t) ∧
      x.2 = w * b.effAt (along b t) + (1 - w) * a.effAt (along a t) := by
  obtain ⟨b, a, w, t, hn, w0, w1, t0, t1, hs, hr, h1, h2⟩ := hx
  rcases eq_or_lt_of_le w0 with he | w0
  · left; exact ⟨a, hn.2.1, by rw [hs, ← he]; ring⟩
  · rcases eq_or_lt_of_le w1 with he | w1
    · left; exact ⟨b, hn.1, by rw [hs, he]; ring⟩
    · rcases eq_or_lt_of_le hn.2.2.1 with he | hlt
      · left; exact ⟨b, hn.1, by rw [hs, ← he]; ring⟩
      · right
        exact ⟨b, a, w, t, hn, by nlinarith, by nlinarith, w0, w1, hs, t0, t1, hr, h1, h2⟩

theorem weight_unique {b a v w w' : ℚ} (h : b < a) (h1 : v = w * b + (1 - w) * a) (h2 : v = w' * b + (1 - w') * a) :
    w = w' := by
  have : (w - w') * (a - b) = 0 := by linarith
  rcases mul_eq_zero.mp this with h0 | h0 <;> linarith

theorem mixed_mono {ch : Chart} (h : Sound ch) {b a : Curve} (hb : b ∈ ch.curves) (ha : a ∈ ch.curves) {w t u : ℚ}
    (w0 : 0 < w) (w1 : w < 1) (hle : w * along b t + (1 - w) * along a t ≤ w * along b u + (1 - w) * along a u) :
    t ≤ u := by
  have x := h.wide b hb
  have y := h.wide a ha
  unfold along at hle
  have hpos : 0 < w * (b.maxRate - b.minRate) + (1 - w) * (a.maxRate - a.minRate) :=
    add_pos (mul_pos w0 (by linarith)) (mul_pos (by linarith) (by linarith))
  by_contra hcon
  have hcon := not_le.mp hcon
  have : 0 < (t - u) * (w * (b.maxRate - b.minRate) + (1 - w) * (a.maxRate - a.minRate)) :=
    mul_pos (by linarith) hpos
  nlinarith

/-- **One value**: the chart has at most one head and efficiency at a speed and rate; in particular there is no jump at
the speed of a curve. -/
theorem C62_unique (ch : Chart) (h : Sound ch) (v rate : ℚ) (x y : ℚ × ℚ) (hx : At ch v rate x) (hy : At ch v rate y) :
    x = y := by
  rcases at_cases h hx with ⟨c, hc, rfl⟩ | ⟨b, a, w, t, hn, l1, l2, w0, w1, hs, t0, t1, hr, x1, x2⟩
  · rw [at_curve h hc hx, at_curve h hc hy]
  · rcases at_cases h hy with ⟨c, hc, he⟩ | ⟨b', a', w', t', hn', l1', l2', w0', w1', hs', t0', t1', hr', y1, y2⟩
    · subst he; rw [at_curve h hc hx, at_curve h hc hy]
    · obtain ⟨e1, e2⟩ := same_pair h hn hn' l1 l2 l1' l2'
      subst e1 e2
      have ew := weight_unique (by linarith) hs hs'
      subst ew
      have et : t = t' := by
        apply le_antisymm
        · exact mixed_mono h hn.1 hn.2.1 w0 w1 (by rw [← hr, ← hr'])
        · exact mixed_mono h hn.1 hn.2.1 w0 w1 (by rw [← hr, ← hr'])
      subst et
      exact Prod.ext (by rw [x1, y1]) (by rw [x2, y2])

/-- **Falling**: at a fixed speed a larger rate never gives a larger head when it does not on the curves. -/
theorem C62_antitone (ch : Chart) (h : Sound ch) (hf : ∀ c ∈ ch.curves, Falls c) (v r r' : ℚ) (x y : ℚ × ℚ)
    (hle : r ≤ r') (hx : At ch v r x) (hy : At ch v r' y) : y.1 ≤ x.1 := by
  rcases at_cases h hx with ⟨c, hc, rfl⟩ | ⟨b, a, w, t, hn, l1, l2, w0, w1, hs, t0, t1, hr, x1, -⟩
  · rw [at_curve h hc hx, at_curve h hc hy]
    exact C56_antitone c (h.increasing c hc) (hf c hc) _ _ hle
  · rcases at_cases h hy with ⟨c, hc, he⟩ | ⟨b', a', w', t', hn', l1', l2', w0', w1', hs', t0', t1', hr', y1, -⟩
    · subst he
      rw [at_curve h hc hx, at_curve h hc hy]
      exact C56_antitone c (h.increasing c hc) (hf c hc) _ _ hle
    · obtain ⟨e1, e2⟩ := same_pair h hn hn' l1 l2 l1' l2'
      subst e1 e2
      have ew := weight_unique (by linarith) hs hs'
      subst ew
      have et : t ≤ t' := mixed_mono h hn.1 hn.2.1 w0 w1 (by rw [← hr, ← hr']; exact hle)
      have along_le : ∀ c ∈ ch.curves, along c t ≤ along c t' := by
        intro c hc
        have := h.wide c hc
        unfold along
        nlinarith
      have q1 := C56_antitone b (h.increasing b hn.1) (hf b hn.1) _ _ (along_le b hn.1)
      have q2 := C56_antitone a (h.increasing a hn.2.1) (hf a hn.2.1) _ _ (along_le a hn.2.1)
      rw [x1, y1]
      have := mul_le_mul_of_nonneg_left q1 (le_of_lt w0)
      have := mul_le_mul_of_nonneg_left q2 (by linarith : (0:ℚ) ≤ 1 - w)
      linarith

theorem mix_bounds {w p q lo hi : ℚ} (w0 : 0 ≤ w) (w1 : w ≤ 1) (h1 : lo ≤ p ∧ p ≤ hi) (h2 : lo ≤ q ∧ q ≤ hi) :
    lo ≤ w * p + (1 - w) * q ∧ w * p + (1 - w) * q ≤ hi := by
  constructor <;> nlinarith

/-- **Range**: head and efficiency stay within the range of the given points. -/
theorem C62_range (ch : Chart) (v r lo hi : ℚ) (x : ℚ × ℚ) (hx : At ch v r x) :
    ((∀ c ∈ ch.curves, ∀ p ∈ c.pts, lo ≤ p.head ∧ p.head ≤ hi) → lo ≤ x.1 ∧ x.1 ≤ hi) ∧
    ((∀ c ∈ ch.curves, ∀ p ∈ c.pts, lo ≤ p.eff ∧ p.eff ≤ hi) → lo ≤ x.2 ∧ x.2 ≤ hi) := by
  obtain ⟨b, a, w, t, hn, w0, w1, t0, t1, hs, hr, h1, h2⟩ := hx
  constructor
  · intro q
    rw [h1]
    exact mix_bounds w0 w1 ((C56_range b lo hi _).1 (q b hn.1)) ((C56_range a lo hi _).1 (q a hn.2.1))
  · intro q
    rw [h2]
    exact mix_bounds w0 w1 ((C56_range b lo hi _).2 (q b hn.1)) ((C56_range a lo hi _).2 (q a hn.2.1))

/-! ## The code computes that value -/

theorem low_mem (ch : Chart) : ch.low ∈ ch.curves := List.mem_cons_self
theorem high_mem (ch : Chart) : ch.high ∈ ch.curves := List.getLast_mem _

theorem below_some {ch : Chart} (h : Sound ch) {v : ℚ} (hv : ch.low.speed ≤ v) :
    ∃ b, ch.curveBelow v = some b ∧ b ∈ ch.curves ∧ b.speed ≤ v ∧ ∀ k ∈ ch.curves, k.speed ≤ v → k.speed ≤ b.speed := by
  cases hb : ch.curveBelow v with
  | none =>
    unfold Chart.curveBelow at hb
    rw [List.head?_eq_none_iff, List.filter_eq_nil_iff] at hb
    have := hb ch.low (List.mem_reverse.mpr (low_mem ch))
    simp [hv] at this
  | some b => exact ⟨b, rfl, (C58_neighbours ch h.faster v b).1.mp hb⟩

theorem above_some {ch : Chart} (h : Sound ch) {v : ℚ} (hv : v ≤ ch.high.speed) :
    ∃ a, ch.curveAbove v = some a ∧ a ∈ ch.curves ∧ v ≤ a.speed ∧ ∀ k ∈ ch.curves, v ≤ k.speed → a.speed ≤ k.speed := by
  cases hb : ch.curveAbove v with
  | none =>
    unfold Chart.curveAbove at hb
    rw [List.head?_eq_none_iff, List.filter_eq_nil_iff] at hb
    have := hb ch.high (high_mem ch)
    simp [hv] at this
  | some b => exact ⟨b, rfl, (C58_neighbours ch h.faster v b).2.1.mp hb⟩

/-- Within the limits of speed and rate the code finds the value of the chart. -/
theorem headEff_valid (ch : Chart) (h : Sound ch) (v r : ℚ) (area : Area) (h1 : ch.low.speed ≤ v) (h2 : v ≤ ch.high.speed)
    (h3 : ch.minRateAtSpeed v ≤ r) (h4 : r ≤ ch.maxRateAtSpeed v) :
    ∃ x, ch.headEff true v r area = .ok (some x) ∧ At ch v r x := by
  unfold Chart.headEff
  simp only [if_true]
  cases hc : ch.curveAt v with
  | some k =>
    obtain ⟨hk, rfl⟩ := (C58_neighbours ch h.faster v k).2.2.mp hc
    obtain ⟨e1, e2⟩ := (C58_speed_limits ch h.faster).1 k hk
    rw [e1] at h3
    rw [e2] at h4
    have hw := h.wide k hk
    refine ⟨_, rfl, k, k, 1, (r - k.minRate) / (k.maxRate - k.minRate), ⟨hk, hk, le_refl _, fun c hc' => le_total _ _⟩, by norm_num, by norm_num,
      div_nonneg (by linarith) (by linarith), (div_le_one (by linarith)).mpr (by linarith), by ring, ?_⟩
    have hal : along k ((r - k.minRate) / (k.maxRate - k.minRate)) = r := by
      unfold along
      rw [div_mul_cancel₀ _ (by linarith : k.maxRate - k.minRate ≠ 0)]
      ring
    rw [hal]
    refine ⟨by ring, by ring, by ring⟩
  | none =>
    obtain ⟨b, hb, hbm, hbv, hbl⟩ := below_some h h1
    obtain ⟨a, ha, ham, hav, hal⟩ := above_some h h2
    have hno : ∀ k ∈ ch.curves, k.speed ≠ v := by
      intro k hk he
      have := (C58_neighbours ch h.faster v k).2.2.mpr ⟨hk, he⟩
      rw [hc] at this
      cases this
    have hbv' : b.speed < v := lt_of_le_of_ne hbv (hno b hbm)
    have hav' : v < a.speed := lt_of_le_of_ne hav (Ne.symm (hno a ham))
    have hn : ∀ k ∈ ch.curves, k.speed ≤ b.speed ∨ a.speed ≤ k.speed := by
      intro k hk
      rcases le_total k.speed v with q | q
      · exact Or.inl (hbl k hk q)
      · exact Or.inr (hal k hk q)
    obtain ⟨⟨-, -, s1⟩, ⟨-, -, s2⟩⟩ := (C58_speed_limits ch h.faster).2 b hbm a ham (by linarith) hn v hbv hav
    have hd : 0 < a.speed - b.speed := by linarith
    have hsum : (a.speed - v) + (v - b.speed) = a.speed - b.speed := by ring
    have hw : weightBelow v a.speed b.speed = (a.speed - v) / (a.speed - b.speed) := by
      unfold weightBelow
      rw [hsum, if_neg (by linarith)]
    unfold Chart.between
    simp only [ha, hb]
    set w := weightBelow v a.speed b.speed with hwd
    have hwe : w * (a.speed - b.speed) = a.speed - v := by
      rw [hw, div_mul_cancel₀ _ (by linarith : a.speed - b.speed ≠ 0)]
    have w0 : 0 < w := by rw [hw]; exact div_pos (by linarith) hd
    have w1 : w < 1 := by rw [hw]; exact (div_lt_one hd).mpr (by linarith)
    have conv : ∀ p q y, (y - p) * (a.speed - b.speed) = (v - b.speed) * (q - p) → w * p + (1 - w) * q = y := by
      intro p q y hy
      have : (w * p + (1 - w) * q - y) * (a.speed - b.speed) = 0 := by
        have e : (w * p + (1 - w) * q - y) * (a.speed - b.speed) =
          (w * (a.speed - b.speed)) * (p - q) + (q - y) * (a.speed - b.speed) := by ring
        rw [e, hwe]
        linarith
      rcases mul_eq_zero.mp this with h0 | h0 <;> linarith
    have elo : w * b.minRate + (1 - w) * a.minRate = ch.minRateAtSpeed v := conv _ _ _ (by linarith [s1])
    have ehi : w * b.maxRate + (1 - w) * a.maxRate = ch.maxRateAtSpeed v := conv _ _ _ (by linarith [s2])
    have wb := h.wide b hbm
    have wa := h.wide a ham
    have hwide : 0 < ch.maxRateAtSpeed v - ch.minRateAtSpeed v := by
      rw [← elo, ← ehi]
      have := mul_pos w0 (by linarith : 0 < b.maxRate - b.minRate)
      have := mul_pos (by linarith : 0 < 1 - w) (by linarith : 0 < a.maxRate - a.minRate)
      linarith
    unfold rateFraction
    simp only [elo, ehi]
    rw [if_neg (by
      rintro (⟨q, -⟩ | ⟨q, -⟩) <;> linarith)]
    simp only [Bind.bind, Except.bind, Pure.pure, Except.pure]
    rw [if_neg (by linarith)]
    refine ⟨_, rfl, b, a, w, (r - ch.minRateAtSpeed v) / (ch.maxRateAtSpeed v - ch.minRateAtSpeed v),
      ⟨hbm, ham, by linarith, hn⟩, le_of_lt w0, le_of_lt w1,
      div_nonneg (by linarith) (by linarith), (div_le_one hwide).mpr (by linarith), ?_, ?_, ?_, ?_⟩
    · linarith
    · unfold along
      set t := (r - ch.minRateAtSpeed v) / (ch.maxRateAtSpeed v - ch.minRateAtSpeed v) with ht
      have : t * (ch.maxRateAtSpeed v - ch.minRateAtSpeed v) = r - ch.minRateAtSpeed v := by
        rw [ht, div_mul_cancel₀ _ (by linarith)]
      rw [← elo, ← ehi] at this
      linarith
    · simp only [along]
      rw [mul_comm (b.maxRate - b.minRate), mul_comm (a.maxRate - a.minRate)]
      ring
    · simp only [along]
      rw [mul_comm (b.maxRate - b.minRate), mul_comm (a.maxRate - a.minRate)]
      ring

/-! ## Validity -/

/-- The speed the machine runs at: a lower speed is raised to the slowest curve if the pressure can be choked. -/
def usedSpeed (ch : Chart) (speed : ℚ) (choke : Bool) : ℚ := if choke then max speed ch.low.speed else speed

/-- What a user expects of an operable point. `rate` is the flow through the machine. -/
def Operable (ch : Chart) (speed actual rate : ℚ) (choke asv : Bool) : Prop :=
  (choke = true ∨ ch.low.speed ≤ speed) ∧ speed ≤ ch.high.speed ∧
  (asv = true ∨ ch.minRateAtSpeed (usedSpeed ch speed choke) ≤ rate) ∧
  actual ≤ ch.maxRateAtSpeed (usedSpeed ch speed choke)

theorem ends_le {ch : Chart} (h : Sound ch) : ∀ c ∈ ch.curves, ch.low.speed ≤ c.speed ∧ c.speed ≤ ch.high.speed := by
  intro c hc
  have hf := h.faster
  unfold Faster at hf
  constructor
  · rcases List.mem_cons.mp hc with hc' | hc'
    · rw [hc']
    · exact le_of_lt ((List.pairwise_cons.mp hf).1 c hc')
  · by_cases he : c = ch.high
    · rw [he]
    · have hne : ch.curves ≠ [] := by simp [Chart.curves]
      have hsplit := List.dropLast_append_getLast hne
      rw [← hsplit] at hf hc
      rcases List.mem_append.mp hc with hc' | hc'
      · exact le_of_lt ((List.pairwise_append.mp hf).2.2 c hc' ch.high (by simp [Chart.high]))
      · simp only [List.mem_singleton] at hc'
        exact absurd hc' he

theorem limits_at_speed {ch : Chart} (h : Sound ch) (v : ℚ) (h1 : ch.low.speed ≤ v) (h2 : v ≤ ch.high.speed) :
    ch.minRateAtSpeed v ≤ ch.maxRateAtSpeed v ∧ noFlow ≤ ch.maxRateAtSpeed v := by
  obtain ⟨b, hb, hbm, hbv, hbl⟩ := below_some h h1
  obtain ⟨a, ha, ham, hav, hal⟩ := above_some h h2
  have hn : ∀ k ∈ ch.curves, k.speed ≤ b.speed ∨ a.speed ≤ k.speed := by
    intro k hk
    rcases le_total k.speed v with q | q
    · exact Or.inl (hbl k hk q)
    · exact Or.inr (hal k hk q)
  have wb := h.wide b hbm
  have wa := h.wide a ham
  have fb := h.flows b hbm
  have fa := h.flows a ham
  rcases eq_or_lt_of_le (le_trans hbv hav) with he | hlt
  · have hvb : v = b.speed := by linarith
    obtain ⟨e1, e2⟩ := (C58_speed_limits ch h.faster).1 b hbm
    rw [hvb, e1, e2]
    exact ⟨le_of_lt wb, fb⟩
  · obtain ⟨⟨-, -, s1⟩, ⟨-, -, s2⟩⟩ := (C58_speed_limits ch h.faster).2 b hbm a ham hlt hn v hbv hav
    have hd : 0 < a.speed - b.speed := by linarith
    constructor
    · by_contra hcon
      have hcon := not_le.mp hcon
      nlinarith [mul_pos (by linarith : 0 < ch.minRateAtSpeed v - ch.maxRateAtSpeed v) hd,
        mul_nonneg (by linarith : 0 ≤ v - b.speed) (by linarith : 0 ≤ a.maxRate - a.minRate),
        mul_nonneg (by linarith : 0 ≤ a.speed - v) (by linarith : 0 ≤ b.maxRate - b.minRate)]
    · by_contra hcon
      have hcon := not_le.mp hcon
      nlinarith [mul_pos (by linarith : 0 < noFlow - ch.maxRateAtSpeed v) hd,
        mul_nonneg (by linarith : 0 ≤ v - b.speed) (by linarith : 0 ≤ a.maxRate - noFlow),
        mul_nonneg (by linarith : 0 ≤ a.speed - v) (by linarith : 0 ≤ b.maxRate - noFlow)]

/-- What the speed test leaves. -/
theorem place_out (ch : Chart) (speed actual rate : ℚ) (choke asv : Bool) :
    (speed < ch.low.speed → choke = false → ch.place speed actual rate choke asv = (false, .belowSpeed, speed, rate)) ∧
    (ch.low.speed ≤ speed → ch.high.speed < speed → ch.place speed actual rate choke asv = (false, .aboveSpeed, speed, rate)) := by
  constructor
  · intro h1 h2
    unfold Chart.place
    simp [h1, h2]
  · intro h1 h2
    unfold Chart.place
    simp [not_lt.mpr h1, h2]

/-- What the flow test leaves when the speed is accepted. -/
theorem place_in (ch : Chart) (hlh : ch.low.speed ≤ ch.high.speed) (speed actual rate : ℚ) (choke asv : Bool)
    (h1 : choke = true ∨ ch.low.speed ≤ speed) (h2 : speed ≤ ch.high.speed) :
    let v := usedSpeed ch speed choke
    ch.low.speed ≤ v ∧ v ≤ ch.high.speed ∧
    (ch.place speed actual rate choke asv).2.2.1 = v ∧
    (ch.place speed actual rate choke asv).2.2.2 =
      (if asv = true then max rate (ch.minRateAtSpeed v) else rate) ∧
    ((ch.place speed actual rate choke asv).1 = true ↔ (asv = true ∨ ch.minRateAtSpeed v ≤ rate) ∧
      ¬ (noFlow < actual ∧ ch.minRateAtSpeed v ≤ actual ∧ ch.maxRateAtSpeed v < actual)) ∧
    (ch.place speed actual rate choke asv).2.1 =
      (if actual ≤ noFlow then .noFlow
       else if actual < ch.minRateAtSpeed v then (if speed < ch.low.speed then .belowSpeedBelowFlow else .belowFlow)
       else if ch.maxRateAtSpeed v < actual then (if speed < ch.low.speed then .belowSpeedAboveFlow else .aboveFlow)
       else if speed < ch.low.speed then .belowSpeed else .internal) := by
  intro v
  have hv : v = if speed < ch.low.speed then ch.low.speed else speed := by
    change usedSpeed ch speed choke = _
    unfold usedSpeed
    by_cases hs : speed < ch.low.speed
    · rcases h1 with rfl | h1
      · simp [hs, le_of_lt hs]
      · linarith
    · simp only [hs, if_false]
      split
      · exact max_eq_left (not_lt.mp hs)
      · rfl
  refine ⟨by rw [hv]; split <;> linarith, by rw [hv]; split <;> linarith, ?_⟩
  unfold Chart.place
  by_cases hs : speed < ch.low.speed
  · have hck : choke = true := by
      rcases h1 with h1 | h1
      · exact h1
      · linarith
    rw [if_pos hs] at hv
    simp only [hs, hck, if_true, hv]
    clear_value v
    subst hv
    by_cases hr : rate < ch.minRateAtSpeed ch.low.speed
    · cases asv
      · by_cases a1 : actual ≤ noFlow <;> by_cases a2 : actual < ch.minRateAtSpeed ch.low.speed <;>
          by_cases a3 : ch.maxRateAtSpeed ch.low.speed < actual <;> simp [hr, a1, a2, a3, not_le.mpr hr]
      · by_cases a1 : actual ≤ noFlow <;> by_cases a2 : actual < ch.minRateAtSpeed ch.low.speed <;>
          by_cases a3 : ch.maxRateAtSpeed ch.low.speed < actual <;>
          simp_all [max_eq_right (le_of_lt hr), not_lt.mpr, not_le.mpr]
    · by_cases a1 : actual ≤ noFlow <;> by_cases a2 : actual < ch.minRateAtSpeed ch.low.speed <;>
          by_cases a3 : ch.maxRateAtSpeed ch.low.speed < actual <;>
          simp_all [max_eq_left (not_lt.mp hr), not_lt.mpr, not_le.mpr]
  · rw [if_neg hs] at hv
    simp only [hs, if_false, not_lt.mpr h2, if_true, hv]
    clear_value v
    subst hv
    by_cases hr : rate < ch.minRateAtSpeed v
    · cases asv
      · by_cases a1 : actual ≤ noFlow <;> by_cases a2 : actual < ch.minRateAtSpeed v <;>
          by_cases a3 : ch.maxRateAtSpeed v < actual <;> simp [hr, a1, a2, a3, not_le.mpr hr]
      · by_cases a1 : actual ≤ noFlow <;> by_cases a2 : actual < ch.minRateAtSpeed v <;>
          by_cases a3 : ch.maxRateAtSpeed v < actual <;>
          simp_all [max_eq_right (le_of_lt hr), not_lt.mpr, not_le.mpr]
    · by_cases a1 : actual ≤ noFlow <;> by_cases a2 : actual < ch.minRateAtSpeed v <;>
          by_cases a3 : ch.maxRateAtSpeed v < actual <;>
          simp_all [max_eq_left (not_lt.mp hr), not_lt.mpr, not_le.mpr]

theorem low_le_high {ch : Chart} (h : Sound ch) : ch.low.speed ≤ ch.high.speed := (ends_le h _ (low_mem ch)).2

/-- **Accepted**: an operable point with a flow through the machine that is within the chart gets the value of the chart
at the speed and flow used. Only flow below the limit is raised, and only with recirculation. -/
theorem C62_accepted (ch : Chart) (h : Sound ch) (speed actual : ℚ) (including : Option ℚ) (choke asv : Bool)
    (hop : Operable ch speed actual (including.getD actual) choke asv)
    (hhi : including.getD actual ≤ ch.maxRateAtSpeed (usedSpeed ch speed choke)) :
    ∃ x area, ch.point speed actual including choke asv = .ok ⟨some x, area, true⟩ ∧
      At ch (usedSpeed ch speed choke) (max (including.getD actual) (ch.minRateAtSpeed (usedSpeed ch speed choke))) x := by
  obtain ⟨o1, o2, o3, o4⟩ := hop
  obtain ⟨p1, p2, p3, p4, p5, -⟩ := place_in ch (low_le_high h) speed actual (including.getD actual) choke asv o1 o2
  have hlim := (limits_at_speed h _ p1 p2).1
  have hval := p5.mpr ⟨o3, fun q => by linarith [q.2.2]⟩
  have hrate : (if asv = true then max (including.getD actual) (ch.minRateAtSpeed (usedSpeed ch speed choke))
      else including.getD actual) = max (including.getD actual) (ch.minRateAtSpeed (usedSpeed ch speed choke)) := by
    split
    · rfl
    · rename_i hn
      rcases o3 with o3 | o3
      · exact absurd o3 hn
      · exact (max_eq_left o3).symm
  rw [hrate] at p4
  obtain ⟨x, hx, hat⟩ := headEff_valid ch h _ (max (including.getD actual) (ch.minRateAtSpeed (usedSpeed ch speed choke)))
    (ch.place speed actual (including.getD actual) choke asv).2.1 p1 p2 (le_max_right _ _) (max_le hhi hlim)
  refine ⟨x, (ch.place speed actual (including.getD actual) choke asv).2.1, ?_, hat⟩
  unfold Chart.point
  rcases hp : ch.place speed actual (including.getD actual) choke asv with ⟨valid, area, speed', rate'⟩
  rw [hp] at p3 p4 hval hx
  simp only at p3 p4 hval hx
  subst p3 p4 hval
  simp only [hx, Bind.bind, Except.bind, Pure.pure, Except.pure]

/-- **Valid exactly when operable** (without a separate flow through the machine). -/
theorem C62_valid_iff (ch : Chart) (h : Sound ch) (speed rate : ℚ) (choke asv : Bool) :
    (∃ x area, ch.point speed rate none choke asv = .ok ⟨x, area, true⟩) ↔ Operable ch speed rate rate choke asv := by
  constructor
  · rintro ⟨x, area, hx⟩
    have hvalid : (ch.place speed rate rate choke asv).1 = true := by
      unfold Chart.point at hx
      simp only [Option.getD_none, Bind.bind, Except.bind, Pure.pure, Except.pure] at hx
      rcases hp : ch.place speed rate rate choke asv with ⟨valid, area', speed', rate'⟩
      rw [hp] at hx
      simp only at hx
      split at hx
      · cases hx
      · injection hx with hx
        injection hx
    obtain ⟨q1, q2⟩ := place_out ch speed rate rate choke asv
    by_cases hs : choke = true ∨ ch.low.speed ≤ speed
    · by_cases hs2 : speed ≤ ch.high.speed
      · obtain ⟨p1, p2, p3, p4, p5, -⟩ := place_in ch (low_le_high h) speed rate rate choke asv hs hs2
        obtain ⟨v1, v2⟩ := p5.mp hvalid
        obtain ⟨l1, l2⟩ := limits_at_speed h _ p1 p2
        refine ⟨hs, hs2, v1, ?_⟩
        by_contra hcon
        have hcon := not_le.mp hcon
        exact v2 ⟨by linarith, by linarith, hcon⟩
      · have hs2 := not_le.mp hs2
        have := q2 (le_trans (low_le_high h) (le_of_lt hs2)) hs2
        rw [this] at hvalid
        cases hvalid
    · push Not at hs
      have := q1 hs.2 (by simpa using hs.1)
      rw [this] at hvalid
      cases hvalid
  · intro hop
    have hhi : (none : Option ℚ).getD rate ≤ ch.maxRateAtSpeed (usedSpeed ch speed choke) := hop.2.2.2
    obtain ⟨x, area, hx, -⟩ := C62_accepted ch h speed rate none choke asv hop hhi
    exact ⟨some x, area, hx⟩

/-- **Speed outside the chart**: not valid, no value, and the area says which side. -/
theorem C62_speed_refused (ch : Chart) (h : Sound ch) (speed actual : ℚ) (including : Option ℚ) (choke asv : Bool) :
    (speed < ch.low.speed → choke = false →
      ch.point speed actual including choke asv = .ok ⟨none, .belowSpeed, false⟩) ∧
    (ch.high.speed < speed → ch.point speed actual including choke asv = .ok ⟨none, .aboveSpeed, false⟩) := by
  obtain ⟨q1, q2⟩ := place_out ch speed actual (including.getD actual) choke asv
  constructor
  · intro h1 h2
    unfold Chart.point
    rw [q1 h1 h2]
    rfl
  · intro h1
    unfold Chart.point
    rw [q2 (le_trans (low_le_high h) (le_of_lt h1)) h1]
    rfl

/-- **Flow outside the chart** at an accepted speed: too much flow gets the values at the right ends of the curves, too
little flow without recirculation those at the left ends; neither is valid. -/
theorem C62_flow_refused (ch : Chart) (h : Sound ch) (speed actual : ℚ) (choke asv : Bool)
    (h1 : choke = true ∨ ch.low.speed ≤ speed) (h2 : speed ≤ ch.high.speed) :
    (ch.maxRateAtSpeed (usedSpeed ch speed choke) < actual →
      ∃ area, (area = .aboveFlow ∨ area = .belowSpeedAboveFlow) ∧ (area = .belowSpeedAboveFlow ↔ speed < ch.low.speed) ∧
      ch.point speed actual none choke asv = .ok ⟨some (ch.atEnds (·.last.head) (usedSpeed ch speed choke),
        ch.atEnds (·.last.eff) (usedSpeed ch speed choke)), area, false⟩) ∧
    (asv = false → noFlow < actual → actual < ch.minRateAtSpeed (usedSpeed ch speed choke) →
      ∃ area, (area = .belowFlow ∨ area = .belowSpeedBelowFlow) ∧ (area = .belowSpeedBelowFlow ↔ speed < ch.low.speed) ∧
      ch.point speed actual none choke asv = .ok ⟨some (ch.atEnds (·.first.head) (usedSpeed ch speed choke),
        ch.atEnds (·.first.eff) (usedSpeed ch speed choke)), area, false⟩) ∧
    (asv = false → actual ≤ noFlow → actual < ch.minRateAtSpeed (usedSpeed ch speed choke) →
      ch.point speed actual none choke asv = .error .assertion) := by
  obtain ⟨p1, p2, p3, p4, p5, p6⟩ := place_in ch (low_le_high h) speed actual actual choke asv h1 h2
  obtain ⟨l1, l2⟩ := limits_at_speed h _ p1 p2
  unfold Chart.point
  simp only [Option.getD_none]
  rcases hp : ch.place speed actual actual choke asv with ⟨valid, area, speed', rate'⟩
  rw [hp] at p3 p4 p5 p6
  simp only at p3 p4 p5 p6
  subst p3
  refine ⟨fun h3 => ?_, fun ha h3 h4 => ?_, fun ha h3 h4 => ?_⟩
  · have hv : valid = false := by
      rcases Bool.eq_false_or_eq_true valid with hv | hv
      · exact absurd ⟨by linarith, by linarith, h3⟩ (p5.mp hv).2
      · exact hv
    rw [if_neg (by linarith), if_neg (by linarith), if_pos h3] at p6
    subst hv
    by_cases hs : speed < ch.low.speed
    · rw [if_pos hs] at p6
      subst p6
      exact ⟨_, Or.inr rfl, by simp [hs], rfl⟩
    · rw [if_neg hs] at p6
      subst p6
      exact ⟨_, Or.inl rfl, by simp [hs], rfl⟩
  · subst ha
    have hv : valid = false := by
      rcases Bool.eq_false_or_eq_true valid with hv | hv
      · rcases (p5.mp hv).1 with q | q
        · cases q
        · linarith
      · exact hv
    rw [if_neg (by linarith), if_pos h4] at p6
    subst hv
    by_cases hs : speed < ch.low.speed
    · rw [if_pos hs] at p6
      subst p6
      exact ⟨_, Or.inr rfl, by simp [hs], rfl⟩
    · rw [if_neg hs] at p6
      subst p6
      exact ⟨_, Or.inl rfl, by simp [hs], rfl⟩
  · subst ha
    have hv : valid = false := by
      rcases Bool.eq_false_or_eq_true valid with hv | hv
      · rcases (p5.mp hv).1 with q | q
        · cases q
        · linarith
      · exact hv
    rw [if_pos h3] at p6
    subst hv p6
    rfl

/-- **Ends of the curves**: the values used for too much or too little flow are those of the curve at that speed, and
divide the ends of the neighbouring curves in proportion between them. -/
theorem C62_ends (ch : Chart) (h : Sound ch) (val : Curve → ℚ) :
    (∀ c ∈ ch.curves, ch.atEnds val c.speed = val c) ∧
    (∀ b a, Neighbours ch b a → b.speed < a.speed → ∀ v, b.speed ≤ v → v ≤ a.speed →
      OnSegment b.speed (val b) a.speed (val a) v (ch.atEnds val v)) := by
  have hf := speed_functional ch h.faster val
  refine ⟨fun c hc => interp_at hf (r := (c.speed, val c)) (List.mem_map.mpr ⟨c, hc, rfl⟩), ?_⟩
  rintro b a ⟨hb, ha, -, hn⟩ hlt v h1 h2
  have key : ch.atEnds val v = onLine (b.speed, val b) (a.speed, val a) v := by
    apply interp_eq hf
    rcases eq_or_lt_of_le h1 with rfl | h1
    · left
      rw [show onLine (b.speed, val b) (a.speed, val a) b.speed = val b from onLine_left]
      exact List.mem_map.mpr ⟨b, hb, rfl⟩
    · rcases eq_or_lt_of_le h2 with rfl | h2
      · left
        rw [show onLine (b.speed, val b) (a.speed, val a) a.speed = val a from
          onLine_right (a := (b.speed, val b)) (b := (a.speed, val a)) hlt]
        exact List.mem_map.mpr ⟨a, ha, rfl⟩
      · right
        refine ⟨_, List.mem_map.mpr ⟨b, hb, rfl⟩, _, List.mem_map.mpr ⟨a, ha, rfl⟩, h1, h2, ?_, rfl⟩
        intro r hr
        obtain ⟨k, hk, rfl⟩ := List.mem_map.mp hr
        exact hn k hk
  rw [key]
  exact onLine_segment (a := (b.speed, val b)) (b := (a.speed, val a)) hlt h1 h2

/-- **Area**: at an accepted speed the area says no flow, too little, too much, or inside, for the flow without
recirculation, and whether the speed was raised. -/
theorem C62_area (ch : Chart) (h : Sound ch) (speed actual : ℚ) (including : Option ℚ) (choke asv : Bool) (r : PointResult)
    (h1 : choke = true ∨ ch.low.speed ≤ speed) (h2 : speed ≤ ch.high.speed)
    (hr : ch.point speed actual including choke asv = .ok r) :
    (r.area = .noFlow ↔ actual ≤ noFlow) ∧
    (r.area = .belowFlow ∨ r.area = .belowSpeedBelowFlow ↔
      noFlow < actual ∧ actual < ch.minRateAtSpeed (usedSpeed ch speed choke)) ∧
    (r.area = .aboveFlow ∨ r.area = .belowSpeedAboveFlow ↔ ch.maxRateAtSpeed (usedSpeed ch speed choke) < actual) ∧
    (r.area = .belowSpeed ∨ r.area = .belowSpeedBelowFlow ∨ r.area = .belowSpeedAboveFlow ↔
      noFlow < actual ∧ speed < ch.low.speed) := by
  obtain ⟨p1, p2, -, -, -, p6⟩ := place_in ch (low_le_high h) speed actual (including.getD actual) choke asv h1 h2
  obtain ⟨l1, l2⟩ := limits_at_speed h _ p1 p2
  have ha : r.area = (ch.place speed actual (including.getD actual) choke asv).2.1 := by
    unfold Chart.point at hr
    rcases hp : ch.place speed actual (including.getD actual) choke asv with ⟨valid, area, speed', rate'⟩
    rw [hp] at hr
    simp only [Bind.bind, Except.bind, Pure.pure, Except.pure] at hr
    split at hr
    · cases hr
    · injection hr with hr
      rw [← hr]
  rw [ha, p6]
  by_cases a1 : actual ≤ noFlow
  · have a1' := not_lt.mpr a1
    have a3 : ¬ ch.maxRateAtSpeed (usedSpeed ch speed choke) < actual := by linarith
    simp [a1, a1', a3]
  · have a1' := not_le.mp a1
    by_cases a2 : actual < ch.minRateAtSpeed (usedSpeed ch speed choke)
    · have a3 : ¬ ch.maxRateAtSpeed (usedSpeed ch speed choke) < actual := by linarith
      by_cases hs : speed < ch.low.speed <;> simp [a1, a1', a2, a3, hs]
    · by_cases a3 : ch.maxRateAtSpeed (usedSpeed ch speed choke) < actual <;> by_cases hs : speed < ch.low.speed <;>
        simp [a1, a1', a2, a3, hs]

/-! ## Findings and examples -/

theorem exSound : Sound exPump.chart where
  faster := by unfold Faster; decide +kernel
  increasing := by unfold Increasing; decide +kernel
  wide := by decide +kernel
  flows := by decide +kernel

/-- **No flow without recirculation**: instead of being marked as not valid, an idle machine raises an error. -/
theorem C62_no_flow : exPump.chart.point exPump.chart.low.speed 0 none true false = .error .assertion := by
  decide +kernel

/-- **Flow through the machine above the chart**: accepted at the speed of a curve, an error between two curves,
although the flow without recirculation is within the chart in both cases. -/
theorem C62_too_much_recirculation :
    exPump.chart.point exPump.chart.low.speed 500 (some 100000) true true =
      .ok ⟨some (exPump.chart.low.last.head, exPump.chart.low.last.eff), .internal, true⟩ ∧
    exPump.chart.point ((exPump.chart.low.speed + exPump.chart.high.speed) / 2 + 1) 500 (some 100000) true true =
      .error .assertion := by
  decide +kernel

/-- Half way between the two curves. -/
example : exPump.chart.point ((exPump.chart.low.speed + exPump.chart.high.speed) / 2) 500 none false false =
    .ok ⟨some (12100 / 3, 229 / 300), .internal, true⟩ ∧ exPump.chart.low.headAt 500 = 2500 ∧
    exPump.chart.high.headAt 500 = 5600 := by decide +kernel

end Verif.C62
