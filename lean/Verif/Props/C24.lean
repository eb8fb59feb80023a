import Verif.Model.System

/-!
# C24: a consumer system uses the first operational setting that works
-/

namespace Verif.C24
open Verif.Time Verif.Rates Verif.System

/-! ## Specification -/

/-- `i` is the choice among `m` settings when `ok j` says that setting `j` works: the first that works, or the last
one when none does. -/
def Choice (m : Nat) (ok : Nat → Prop) (i : Nat) : Prop :=
  i < m ∧ (∀ j, j < i → ¬ ok j) ∧ (ok i ∨ i + 1 = m)

/-- The choice is determined. -/
theorem choice_unique {m : Nat} {ok : Nat → Prop} {i j : Nat} (hi : Choice m ok i) (hj : Choice m ok j) : i = j := by
  obtain ⟨a1, a2, a3⟩ := hi
  obtain ⟨b1, b2, b3⟩ := hj
  rcases Nat.lt_trichotomy i j with h | h | h
  · rcases a3 with a3 | a3
    · exact absurd a3 (b2 i h)
    · omega
  · exact h
  · rcases b3 with b3 | b3
    · exact absurd b3 (a2 j h)
    · omega

/-! ## The loop over settings -/

theorem mem_outside (valid : List Bool) (t : Nat) : t ∈ outsideCapacity valid ↔ valid[t]? = some false := by
  unfold outsideCapacity
  rw [List.mem_map]
  constructor
  · rintro ⟨⟨b, k⟩, h, rfl⟩
    rw [List.mem_filter] at h
    have := List.mem_zipIdx_iff_getElem?.mp h.1
    simp only [Bool.not_eq_true'] at h
    simpa [h.2] using this
  · intro h
    refine ⟨(false, t), ?_, rfl⟩
    rw [List.mem_filter]
    exact ⟨List.mem_zipIdx_iff_getElem?.mpr h, rfl⟩

theorem assign_length (is : List Nat) (v : Nat) : ∀ used, (assignAll used is v).length = used.length := by
  induction is with
  | nil => intro used; rfl
  | cons i is ih =>
    intro used
    have := ih (used.set i v)
    simpa [assignAll] using this

theorem assign_get (is : List Nat) (v t : Nat) : ∀ used : List Nat, t < used.length →
    (assignAll used is v)[t]? = if t ∈ is then some v else used[t]? := by
  induction is with
  | nil => intro used _; simp [assignAll]
  | cons i is ih =>
    intro used ht
    have h := ih (used.set i v) (by simpa using ht)
    have e : assignAll used (i :: is) v = assignAll (used.set i v) is v := rfl
    rw [e, h]
    by_cases hm : t ∈ is
    · simp [hm]
    · by_cases hi : t = i
      · subst hi
        simp [hm, ht]
      · have : ¬ i = t := fun h => hi h.symm
        simp [hm, hi, this]

theorem loop_length : ∀ (rest : List (List Bool)) (i : Nat) (rem used : List Nat),
    (settingLoop i rest rem used).length = used.length := by
  intro rest
  induction rest with
  | nil => intro i rem used; rfl
  | cons v rest ih =>
    intro i rem used
    unfold settingLoop
    simp only
    split
    · rfl
    · rw [ih, assign_length]

theorem loop_get (t : Nat) : ∀ (rest : List (List Bool)) (i : Nat) (rem used : List Nat),
    (∀ v ∈ rest, t < v.length) → t < used.length → used[t]? = some i ∨ t ∉ rem →
    (settingLoop i rest rem used)[t]? =
      if t ∈ rem then some (i + rest.findIdx (fun v => v[t]? == some true)) else used[t]? := by
  intro rest
  induction rest with
  | nil =>
    intro i rem used _ ht h
    unfold settingLoop
    split
    · rename_i hm
      rcases h with h | h
      · simpa using h
      · exact absurd hm h
    · rfl
  | cons v rest ih =>
    intro i rem used hv ht h
    have hlen := hv v (by simp)
    have hrest : ∀ w ∈ rest, t < w.length := fun w hw => hv w (List.mem_cons_of_mem _ hw)
    have hout := mem_outside v t
    have hval : v[t]? = some true ∨ v[t]? = some false := by
      rw [List.getElem?_eq_getElem hlen]
      cases v[t] <;> simp
    unfold settingLoop
    simp only
    generalize hr : rem.filter (fun t => t ∈ outsideCapacity v) = rem'
    have hmem : t ∈ rem' ↔ t ∈ rem ∧ v[t]? = some false := by
      rw [← hr, List.mem_filter, ← hout]
      simp
    split
    · rename_i h0
      have hnil : rem' = [] := List.length_eq_zero_iff.mp h0
      rw [hnil] at hmem
      split
      · rename_i hm
        have : v[t]? = some true := by
          rcases hval with h | h
          · exact h
          · exact absurd (hmem.mpr ⟨hm, h⟩) (by simp)
        rw [List.findIdx_cons, this]
        rcases h with h | h
        · simpa using h
        · exact absurd hm h
      · rfl
    · rw [ih (i + 1) rem' (assignAll used rem' (i + 1)) hrest (by rw [assign_length]; exact ht)]
      · by_cases hm : t ∈ rem
        · rcases hval with hb | hb
          · have : t ∉ rem' := by rw [hmem]; simp [hb]
            rw [if_neg this, if_pos hm, assign_get _ _ _ _ ht, if_neg this, List.findIdx_cons, hb]
            rcases h with h | h
            · simpa using h
            · exact absurd hm h
          · have : t ∈ rem' := hmem.mpr ⟨hm, hb⟩
            rw [if_pos this, if_pos hm, List.findIdx_cons, hb]
            simp [Nat.add_assoc, Nat.add_comm]
        · have : t ∉ rem' := fun h => hm (hmem.mp h).1
          rw [if_neg this, if_neg hm, assign_get _ _ _ _ ht, if_neg this]
      · by_cases hm : t ∈ rem'
        · left
          rw [assign_get _ _ _ _ ht, if_pos hm]
        · exact Or.inr hm

/-- **Choice of the setting.** With at least one setting, whatever settings are valid in which period, the setting
used in each period is the first valid one, or the last one when none is. -/
theorem C24_first_valid (valid : List (List Bool)) (n : Nat) (hne : valid ≠ [])
    (hlen : ∀ v ∈ valid, v.length = n) :
    ∃ used, settingUsed valid = .ok used ∧ used.length = n ∧
      ∀ t, t < n → ∃ i, used[t]? = some i ∧
        Choice valid.length (fun j => (valid[j]?.bind (fun v => v[t]?)) = some true) i := by
  obtain ⟨v, vs, rfl⟩ := List.exists_cons_of_ne_nil hne
  have hvn : v.length = n := hlen v (by simp)
  refine ⟨_, rfl, by rw [loop_length]; simpa using hvn, ?_⟩
  intro t ht
  generalize hd : (v :: vs).dropLast = front
  have hfl : front.length = vs.length := by rw [← hd]; simp
  have hfg : ∀ j, j < vs.length → front[j]? = (v :: vs)[j]? := by
    intro j hj
    rw [← hd, List.getElem?_dropLast]
    simp [hj]
  have hfm : ∀ w ∈ front, t < w.length := by
    intro w hw
    rw [← hd] at hw
    rw [hlen w (List.dropLast_subset _ hw)]
    exact ht
  have hg := loop_get t front 0 (List.range v.length) (List.replicate v.length 0) hfm (by simpa [hvn] using ht)
    (by left; simp [hvn, ht])
  rw [if_pos (by simpa [hvn] using ht), Nat.zero_add] at hg
  refine ⟨_, hg, ?_⟩
  generalize hk : front.findIdx (fun v => v[t]? == some true) = k
  have hkle : k ≤ vs.length := by rw [← hk, ← hfl]; exact List.findIdx_le_length
  refine ⟨by simpa using Nat.lt_succ_of_le hkle, ?_, ?_⟩
  · intro j hj
    have hjf : j < front.length := by omega
    have := List.not_of_lt_findIdx (p := fun v : List Bool => v[t]? == some true) (xs := front) (i := j) (by omega)
    show ¬ ((v :: vs)[j]?.bind (fun v => v[t]?)) = some true
    rw [← hfg j (by omega), List.getElem?_eq_getElem hjf]
    simpa using this
  · by_cases hlt : k < vs.length
    · left
      have hkf : front.findIdx (fun v => v[t]? == some true) < front.length := by omega
      have := List.findIdx_getElem (p := fun v : List Bool => v[t]? == some true) (xs := front) (w := hkf)
      subst hk
      show ((v :: vs)[_]?.bind (fun v => v[t]?)) = some true
      rw [← hfg _ hlt, List.getElem?_eq_getElem hkf]
      simpa using this
    · right
      simp
      omega

/-- No settings at all is an error. -/
theorem C24_no_settings : settingUsed [] = .error .indexError := rfl

/-! ## The whole system -/

theorem allValid_spec (n : Nat) : ∀ vs : List (List Bool), vs ≠ [] → (∀ v ∈ vs, v.length = n) →
    (allValid vs).length = n ∧
    ∀ t, t < n → ((allValid vs)[t]? = some true ↔ ∀ v ∈ vs, v[t]? = some true) := by
  intro vs
  induction vs with
  | nil => intro h; exact absurd rfl h
  | cons v vs ih =>
    intro _ hl
    cases vs with
    | nil => exact ⟨hl v (by simp), fun t _ => by simp [allValid]⟩
    | cons w ws =>
      obtain ⟨h1, h2⟩ := ih (by simp) (fun x hx => hl x (List.mem_cons_of_mem _ hx))
      have hv := hl v (by simp)
      have e : allValid (v :: w :: ws) = List.zipWith (· && ·) v (allValid (w :: ws)) := rfl
      rw [e]
      refine ⟨by simp [hv, h1], fun t ht => ?_⟩
      have hvt : t < v.length := by omega
      have hat : t < (allValid (w :: ws)).length := by omega
      rw [List.forall_mem_cons, ← h2 t ht, List.getElem?_zipWith, List.getElem?_eq_getElem hvt,
        List.getElem?_eq_getElem hat]
      simp

theorem nth_ok {α : Type} {xs : List α} {i : Nat} {x : α} (h : xs[i]? = some x) : nth xs i = .ok x := by
  unfold nth; rw [h]

theorem dictSet_fresh {α β : Type} [DecidableEq α] (k : α) (v : β) (l : List (α × β)) (h : k ∉ l.map (·.1)) :
    dictSet k v l = l ++ [(k, v)] := by
  induction l with
  | nil => rfl
  | cons a l ih =>
    simp only [List.map_cons, List.mem_cons, not_or] at h
    unfold dictSet
    rw [if_neg (fun e => h.1 e.symm), ih h.2]
    rfl

/-- One setting: the dict has one entry per consumer. -/
theorem setting_results {In Res : Type} : ∀ (cs : List (Consumer In Res)) (k : Nat) (inputs : List (List In))
    (acc : List (String × List Res)), (acc.map (·.1) ++ cs.map (·.name)).Nodup → k + cs.length ≤ inputs.length →
    (cs.zipIdx k).foldlM (fun acc ci => do
      let input ← nth inputs ci.2
      return dictSet ci.1.name (ci.1.evaluate input) acc) acc =
      (.ok (acc ++ List.zipWith (fun c input => (c.name, c.evaluate input)) cs (inputs.drop k)) :
        Except Err (List (String × List Res))) := by
  intro cs
  induction cs with
  | nil => intro k inputs acc _ _; simp [Pure.pure, Except.pure]
  | cons c cs ih =>
    intro k inputs acc hnd hk
    have hk' : k < inputs.length := by simp at hk; omega
    rw [List.zipIdx_cons, List.foldlM_cons]
    have hn : nth inputs k = .ok inputs[k] := nth_ok (List.getElem?_eq_getElem hk')
    simp only [Bind.bind, Except.bind, hn, Pure.pure, Except.pure]
    have hfresh : c.name ∉ acc.map (·.1) := by
      intro hm
      rw [List.nodup_append] at hnd
      exact hnd.2.2 _ hm _ (by simp) rfl
    rw [dictSet_fresh _ _ _ hfresh]
    have := ih (k + 1) inputs (acc ++ [(c.name, c.evaluate inputs[k])]) (by simpa using hnd) (by simp at hk ⊢; omega)
    simp only [Bind.bind, Except.bind, Pure.pure, Except.pure] at this
    rw [this, List.drop_eq_getElem_cons hk', List.zipWith_cons_cons, List.append_assoc]
    rfl

/-- Setting `j` works in period `t`: every consumer is valid at its operating point of that setting. -/
def Works {In Res : Type} (valid : Res → Bool) (cs : List (String × (In → Res))) (settings : List (List (List In)))
    (t j : Nat) : Prop :=
  ∃ setting, settings[j]? = some setting ∧
    ∀ (c : Nat) (name : String) (f : In → Res), cs[c]? = some (name, f) →
      ∃ points x, setting[c]? = some points ∧ points[t]? = some x ∧ valid (f x) = true

theorem mapM_map {α β : Type} (f : α → Except Err β) (g : α → β) : ∀ l : List α, (∀ a ∈ l, f a = .ok (g a)) →
    l.mapM f = .ok (l.map g) := by
  intro l
  induction l with
  | nil => intro _; rfl
  | cons a l ih =>
    intro h
    rw [List.mapM_cons, h a (by simp)]
    simp only [Bind.bind, Except.bind]
    rw [ih (fun b hb => h b (List.mem_cons_of_mem _ hb))]
    rfl

theorem mapM_get {α β : Type} (f : α → Except Err β) (P : Nat → β → Prop) : ∀ (l : List α),
    (∀ (k : Nat) (hk : k < l.length), ∃ b, f l[k] = .ok b ∧ P k b) →
    ∃ bs, l.mapM f = .ok bs ∧ bs.length = l.length ∧ ∀ (k : Nat) (hk : k < bs.length), P k bs[k] := by
  intro l
  induction l generalizing P with
  | nil => intro _; exact ⟨[], rfl, rfl, fun k hk => absurd hk (by simp)⟩
  | cons a l ih =>
    intro h
    obtain ⟨b, hb, hP⟩ := h 0 (by simp)
    obtain ⟨bs, h1, h2, h3⟩ := ih (fun k => P (k + 1)) (fun k hk => h (k + 1) (by simpa using hk))
    simp only [List.getElem_cons_zero] at hb
    refine ⟨b :: bs, ?_, by simp [h2], ?_⟩
    · rw [List.mapM_cons, hb]
      simp only [Bind.bind, Except.bind]
      rw [h1]
      rfl
    · intro k hk
      cases k with
      | zero => exact hP
      | succ k => simpa using h3 k (by simpa using hk)

/-- **The system.** For consumers computing each period on its own, with distinct names: the setting used in each
period is the first one in which all consumers are valid (or the last), and each consumer reports its result at the
operating point of that setting. -/
theorem C24_system {In Res : Type} (valid : Res → Bool) (cs : List (String × (In → Res)))
    (settings : List (List (List In))) (n : Nat) (hc : cs ≠ []) (hs : settings ≠ [])
    (hnd : (cs.map (·.1)).Nodup) (hlen : ∀ s ∈ settings, s.length = cs.length ∧ ∀ p ∈ s, p.length = n) :
    ∃ used actual, evaluateSystem valid (cs.map (fun c => ⟨c.1, List.map c.2⟩)) settings = .ok (used, actual) ∧
      used.length = n ∧ actual.map (·.1) = cs.map (·.1) ∧ (∀ a ∈ actual, a.2.length = n) ∧
      ∀ t, t < n → ∃ i setting, used[t]? = some i ∧ settings[i]? = some setting ∧
        Choice settings.length (Works valid cs settings t) i ∧
        ∀ (c : Nat) (name : String) (f : In → Res), cs[c]? = some (name, f) →
          ∃ points x rs, setting[c]? = some points ∧ points[t]? = some x ∧
            actual[c]? = some (name, rs) ∧ rs[t]? = some (f x) := by
  generalize hcons : cs.map (fun c => (⟨c.1, List.map c.2⟩ : Consumer In Res)) = consumers
  have hconl : consumers.length = cs.length := by rw [← hcons]; simp
  have hcong : ∀ (c : Nat) (hk : c < consumers.length) (hk' : c < cs.length),
      consumers[c] = ⟨cs[c].1, List.map cs[c].2⟩ := by
    intro c hk hk'
    subst hcons
    simp
  -- results per setting
  have hres : settings.mapM (settingResults consumers) = .ok (settings.map (fun s =>
      List.zipWith (fun c input => (c.name, c.evaluate input)) consumers s)) := by
    apply mapM_map
    intro s hsm
    have := setting_results consumers 0 s [] (by
      have : consumers.map (·.name) = cs.map (·.1) := by rw [← hcons]; simp
      simpa [this] using hnd) (by rw [hconl, (hlen s hsm).1]; omega)
    simpa [settingResults] using this
  -- validity per setting
  generalize hvm : (settings.map (fun s =>
      List.zipWith (fun c input => (c.name, c.evaluate input)) consumers s)).map
      (fun rs => allValid (rs.map (fun nr => nr.2.map valid))) = matrix
  have hml : matrix.length = settings.length := by rw [← hvm]; simp
  have hrow : ∀ (s : List (List In)), s ∈ settings →
      (allValid ((List.zipWith (fun c input => (c.name, c.evaluate input)) consumers s).map
        (fun nr => nr.2.map valid))).length = n ∧
      ∀ t, t < n → ((allValid ((List.zipWith (fun c input => (c.name, c.evaluate input)) consumers s).map
        (fun nr => nr.2.map valid)))[t]? = some true ↔
          ∀ (c : Nat) (name : String) (f : In → Res), cs[c]? = some (name, f) →
            ∃ points x, s[c]? = some points ∧ points[t]? = some x ∧ valid (f x) = true) := by
    intro s hsm
    obtain ⟨hsl, hsp⟩ := hlen s hsm
    have hcp : 0 < cs.length := List.length_pos_iff.mpr hc
    have key : ∀ v, v ∈ (List.zipWith (fun c input => (c.name, c.evaluate input)) consumers s).map
        (fun nr => nr.2.map valid) ↔ ∃ (c : Nat) (hk : c < cs.length) (hk' : c < s.length),
          v = (s[c].map cs[c].2).map valid := by
      intro v
      rw [List.mem_map]
      constructor
      · rintro ⟨nr, hnr, rfl⟩
        obtain ⟨c, hk, rfl⟩ := List.mem_iff_getElem.mp hnr
        have h2 : c < consumers.length := by simp at hk; omega
        have h3 : c < cs.length := by omega
        have h4 : c < s.length := by omega
        refine ⟨c, h3, h4, ?_⟩
        rw [List.getElem_zipWith, hcong c h2 h3]
      · rintro ⟨c, hk, hk', rfl⟩
        have h2 : c < consumers.length := by omega
        refine ⟨(cs[c].1, s[c].map cs[c].2), ?_, rfl⟩
        rw [List.mem_iff_getElem]
        refine ⟨c, by simp; omega, ?_⟩
        rw [List.getElem_zipWith, hcong c h2 hk]
    obtain ⟨a1, a2⟩ := allValid_spec n ((List.zipWith (fun c input => (c.name, c.evaluate input)) consumers s).map
        (fun nr => nr.2.map valid)) (by
          intro h
          have := (key ((s[0].map cs[0].2).map valid)).mpr ⟨0, hcp, by omega, rfl⟩
          rw [h] at this
          simp at this) (by
          intro v hv
          obtain ⟨c, hk, hk', rfl⟩ := (key v).mp hv
          simpa using hsp s[c] (List.getElem_mem hk'))
    refine ⟨a1, fun t ht => ?_⟩
    rw [a2 t ht]
    constructor
    · intro h c name f hcf
      obtain ⟨hk, he⟩ := List.getElem?_eq_some_iff.mp hcf
      have hk' : c < s.length := by omega
      have hpl := hsp s[c] (List.getElem_mem hk')
      have hpt : t < s[c].length := by omega
      have := h _ ((key _).mpr ⟨c, hk, hk', rfl⟩)
      refine ⟨s[c], s[c][t], List.getElem?_eq_getElem hk', List.getElem?_eq_getElem hpt, ?_⟩
      rw [List.getElem?_map, List.getElem?_map, List.getElem?_eq_getElem hpt, he] at this
      simpa using this
    · intro h v hv
      obtain ⟨c, hk, hk', rfl⟩ := (key v).mp hv
      obtain ⟨points, x, h1, h2, h3⟩ := h c cs[c].1 cs[c].2 (List.getElem?_eq_getElem hk)
      rw [List.getElem?_eq_getElem hk'] at h1
      cases h1
      rw [List.getElem?_map, List.getElem?_map, h2]
      simpa using h3
  have hmne : matrix ≠ [] := by
    intro h
    rw [h] at hml
    exact hs (List.length_eq_zero_iff.mp hml.symm)
  have hmlen : ∀ v ∈ matrix, v.length = n := by
    intro v hv
    rw [← hvm, List.map_map] at hv
    obtain ⟨s, hsm, rfl⟩ := List.mem_map.mp hv
    exact (hrow s hsm).1
  obtain ⟨used, hu, hul, huc⟩ := C24_first_valid matrix n hmne hmlen
  have hok : ∀ t, t < n → ∀ j, (matrix[j]?.bind (fun v => v[t]?)) = some true ↔ Works valid cs settings t j := by
    intro t ht j
    rw [← hvm, List.map_map, List.getElem?_map]
    unfold Works
    cases hj : settings[j]? with
    | none => simp
    | some s =>
      simp only [Option.map_some, Option.bind_some, Function.comp]
      rw [(hrow s (List.mem_of_getElem? hj)).2 t ht]
      constructor
      · intro h; exact ⟨s, rfl, h⟩
      · rintro ⟨s', h1, h2⟩
        cases h1
        exact h2
  have huse : ∀ t, t < n → ∃ i setting, used[t]? = some i ∧ settings[i]? = some setting ∧ setting ∈ settings ∧
      Choice settings.length (Works valid cs settings t) i := by
    intro t ht
    obtain ⟨i, h1, h2, h3, h4⟩ := huc t ht
    rw [hml] at h2 h4
    exact ⟨i, settings[i], h1, List.getElem?_eq_getElem h2, List.getElem_mem h2, h2,
      fun j hj => by rw [← hok t ht j]; exact h3 j hj,
      by rw [← hok t ht i]; exact h4⟩
  -- the operating points of consumer c
  have hact : ∀ c, c < cs.length → ∃ points, actualInputs settings used c = .ok points ∧ points.length = n ∧
      ∀ (t : Nat) (_ : t < points.length), ∀ i setting, used[t]? = some i → settings[i]? = some setting →
        ∃ ps, setting[c]? = some ps ∧ ps[t]? = some points[t] := by
    intro c hcl
    have := mapM_get (fun ui => (do
      let setting ← nth settings ui.1
      let input ← nth setting c
      nth input ui.2 : Except Err In)) (fun t x => ∀ i setting, used[t]? = some i → settings[i]? = some setting →
        ∃ ps, setting[c]? = some ps ∧ ps[t]? = some x) used.zipIdx (by
      intro t ht
      have ht' : t < used.length := by simpa using ht
      obtain ⟨i, setting, h1, h2, h3, _⟩ := huse t (by omega)
      have hui : used[t] = i := by
        rw [List.getElem?_eq_getElem ht'] at h1
        exact Option.some.inj h1
      have hsl := (hlen setting h3).1
      have hcs : c < setting.length := by omega
      have hpl := (hlen setting h3).2 setting[c] (List.getElem_mem hcs)
      have hpt : t < setting[c].length := by omega
      refine ⟨setting[c][t], ?_, ?_⟩
      · rw [List.getElem_zipIdx]
        simp only [Bind.bind, Except.bind, Nat.zero_add, hui, nth_ok h2,
          nth_ok (List.getElem?_eq_getElem hcs), nth_ok (List.getElem?_eq_getElem hpt)]
      · intro i' setting' e1 e2
        rw [h1] at e1; cases e1
        rw [h2] at e2; cases e2
        exact ⟨_, List.getElem?_eq_getElem hcs, List.getElem?_eq_getElem hpt⟩)
    obtain ⟨points, p1, p2, p3⟩ := this
    exact ⟨points, p1, by rw [p2]; simpa using hul, p3⟩
  have hfinal := mapM_get (fun (ci : Consumer In Res × Nat) => (do
      let input ← actualInputs settings used ci.2
      return (ci.1.name, ci.1.evaluate input) : Except Err (String × List Res)))
    (fun c r => ∀ (name : String) (f : In → Res), cs[c]? = some (name, f) →
      r.1 = name ∧ r.2.length = n ∧ ∀ t, t < n → ∀ i setting, used[t]? = some i → settings[i]? = some setting →
        ∃ ps x, setting[c]? = some ps ∧ ps[t]? = some x ∧ r.2[t]? = some (f x)) consumers.zipIdx (by
    intro c hk
    have hk1 : c < consumers.length := by simpa using hk
    have hk2 : c < cs.length := by omega
    obtain ⟨points, h1, h2, h3⟩ := hact c hk2
    refine ⟨(cs[c].1, points.map cs[c].2), ?_, ?_⟩
    · rw [List.getElem_zipIdx]
      simp only [Bind.bind, Except.bind, Nat.zero_add, h1, Pure.pure, Except.pure, hcong c hk1 hk2]
    · intro name f hcf
      rw [List.getElem?_eq_getElem hk2] at hcf
      have he := Option.some.inj hcf
      refine ⟨by rw [he], by simpa using h2, fun t ht i setting e1 e2 => ?_⟩
      have htp : t < points.length := by omega
      obtain ⟨ps, q1, q2⟩ := h3 t htp i setting e1 e2
      exact ⟨ps, points[t], q1, q2, by rw [List.getElem?_map, List.getElem?_eq_getElem htp, he]; rfl⟩)
  obtain ⟨actual, f1, f2, f3⟩ := hfinal
  have hal : actual.length = cs.length := by rw [f2]; simpa using hconl
  refine ⟨used, actual, ?_, hul, ?_, ?_, ?_⟩
  · unfold evaluateSystem
    simp only [Bind.bind, Except.bind] at f1 ⊢
    rw [hres]
    simp only
    rw [hvm, hu]
    simp only
    rw [f1]
    rfl
  · apply List.ext_getElem (by simp [hal])
    intro c h1 h2
    have k1 : c < actual.length := by simpa using h1
    have k2 : c < cs.length := by simpa using h2
    rw [List.getElem_map, List.getElem_map]
    exact (f3 c k1 _ _ (List.getElem?_eq_getElem k2)).1
  · intro a ha
    obtain ⟨c, k1, rfl⟩ := List.mem_iff_getElem.mp ha
    have k2 : c < cs.length := by omega
    exact (f3 c k1 _ _ (List.getElem?_eq_getElem k2)).2.1
  · intro t ht
    obtain ⟨i, setting, h1, h2, _, h4⟩ := huse t ht
    refine ⟨i, setting, h1, h2, h4, ?_⟩
    intro c name f hcf
    obtain ⟨k2, _⟩ := List.getElem?_eq_some_iff.mp hcf
    have k1 : c < actual.length := by omega
    obtain ⟨g1, _, g3⟩ := f3 c k1 name f hcf
    obtain ⟨ps, x, q1, q2, q3⟩ := g3 t ht i setting h1 h2
    exact ⟨ps, x, actual[c].2, q1, q2, by rw [List.getElem?_eq_getElem k1, ← g1], q3⟩

/-! ## Examples -/

/-- Period 0 works in setting 1, period 1 in none (last one is used), period 2 in settings 0 and 2. -/
example : settingUsed [[false, false, true], [true, false, false], [true, false, true]] = .ok [1, 2, 0] := by decide

example : evaluateSystem (fun r : Nat => r < 10)
    (([("a", fun x => x), ("b", fun x => 2 * x)] : List (String × (Nat → Nat))).map (fun c => ⟨c.1, List.map c.2⟩))
    [[[12, 3, 20], [1, 1, 9]], [[6, 3, 20], [4, 1, 9]]] =
    .ok ([1, 0, 1], [("a", [6, 3, 20]), ("b", [8, 2, 18])]) := by decide

end Verif.C24
