import Verif.Model.YamlLocate
import Mathlib.Tactic.Push

/-!
# C99: an error is reported where it is

Specification: `Elem env v k w` says that `w` stands in `v` under the key `k` — under its name in capitals, at its place in a list,
or under a key that is that date; `Leads env v p w` follows a path; `Inside v w` says that `w` occurs somewhere in `v`.
`Tidy` says that no mapping has a key twice, and that either all its keys are (different) dates or none of them is.
`Proper` says that what occurs in a value stands in its place, which is so if everything is in one file.
-/

namespace Verif.C99

open Verif.YamlLocate

variable {env : Env}

/-- `w` stands in `v` under the key. -/
inductive Elem (env : Env) : Val → PKey → Val → Prop
  | str {sp l s w} : (DKey.str (env.upper s), w) ∈ l → Elem env (.map sp l) (.str s) w
  | idx {sp l i w} : l[i]? = some w → Elem env (.seq sp l) (.idx i) w
  | date {sp l d k w} : (k, w) ∈ l → env.parse k = some d → Elem env (.map sp l) (.date d) w

/-- Following a path. -/
inductive Leads (env : Env) : Val → List PKey → Val → Prop
  | here {v} : Leads env v [] v
  | there {v k w p u} : Elem env v k w → Leads env w p u → Leads env v (k :: p) u

/-- `w` occurs in `v`. -/
inductive Inside : Val → Val → Prop
  | self {v} : Inside v v
  | seq {sp l w u} : w ∈ l → Inside w u → Inside (.seq sp l) u
  | map {sp l k w u} : (k, w) ∈ l → Inside w u → Inside (.map sp l) u

/-- No key twice; dates do not stand beside other keys. -/
def Tidy (env : Env) (v : Val) : Prop :=
  ∀ sp l, Inside v (.map sp l) → (l.map (·.1)).Nodup ∧
    ((∀ x ∈ l, env.parse x.1 = none) ∨
      ((∀ x ∈ l, ∃ d, env.parse x.1 = some d) ∧ (l.map fun x => env.parse x.1).Nodup))

/-- Before or at, in the order of reading. -/
def before (a b : ℕ × ℕ) : Prop := a.1 < b.1 ∨ (a.1 = b.1 ∧ a.2 ≤ b.2)

/-- One place is part of another. -/
def Within (a b : Span) : Prop := a.file = b.file ∧ before b.start a.start ∧ before a.stop b.stop

/-- What occurs in a value stands in its place. -/
def Proper (v : Val) : Prop := ∀ u w, Inside v u → Inside u w → Within w.span u.span

/-! ### Steps and paths -/

theorem lookup_iff {k : DKey} : ∀ {l : List (DKey × Val)}, (l.map (·.1)).Nodup → ∀ w, lookup k l = some w ↔ (k, w) ∈ l
  | [], _, w => by simp [lookup]
  | (k', v) :: rest, h, w => by
    simp only [List.map_cons, List.nodup_cons] at h
    rw [lookup]
    by_cases e : k' = k
    · rw [if_pos e]
      subst e
      constructor
      · intro hw; cases hw; exact List.mem_cons_self
      · intro hw
        rcases List.mem_cons.1 hw with h' | h'
        · cases h'; rfl
        · exact absurd (List.mem_map.2 ⟨_, h', rfl⟩) h.1
    · rw [if_neg e, lookup_iff h.2 w]
      constructor
      · exact fun hw => List.mem_cons_of_mem _ hw
      · intro hw
        rcases List.mem_cons.1 hw with h' | h'
        · cases h'; exact absurd rfl e
        · exact h'

theorem findDate_none {d : ℤ} : ∀ {l : List (DKey × Val)}, (∀ x ∈ l, env.parse x.1 = none) → findDate env d l = none
  | [], _ => rfl
  | (k, v) :: rest, h => by
    have := h (k, v) List.mem_cons_self
    rw [findDate]
    dsimp only at this
    rw [this]

theorem findDate_iff {d : ℤ} : ∀ {l : List (DKey × Val)}, (∀ x ∈ l, ∃ d, env.parse x.1 = some d) →
    (l.map fun x => env.parse x.1).Nodup → ∀ w, findDate env d l = some w ↔ ∃ k, (k, w) ∈ l ∧ env.parse k = some d
  | [], _, _, w => by simp [findDate]
  | (k, v) :: rest, h, hn, w => by
    obtain ⟨d', hd'⟩ := h (k, v) List.mem_cons_self
    dsimp only at hd'
    simp only [List.map_cons, List.nodup_cons] at hn
    rw [findDate, hd']
    dsimp only
    by_cases e : d' = d
    · rw [if_pos e]
      subst e
      constructor
      · intro hw; cases hw; exact ⟨k, List.mem_cons_self, hd'⟩
      · rintro ⟨k', hm, hk'⟩
        rcases List.mem_cons.1 hm with h' | h'
        · cases h'; rfl
        · exact absurd (List.mem_map.2 ⟨_, h', by dsimp only; rw [hk', hd']⟩) hn.1
    · rw [if_neg e, findDate_iff (fun x hx => h x (List.mem_cons_of_mem _ hx)) hn.2 w]
      constructor
      · rintro ⟨k', hm, hk'⟩; exact ⟨k', List.mem_cons_of_mem _ hm, hk'⟩
      · rintro ⟨k', hm, hk'⟩
        rcases List.mem_cons.1 hm with h' | h'
        · cases h'; rw [hd'] at hk'; exact absurd (Option.some.inj hk') e
        · exact ⟨k', h', hk'⟩

theorem step_iff {v : Val} (ht : Tidy env v) (k : PKey) (w : Val) : step env v k = some w ↔ Elem env v k w := by
  cases k with
  | str s =>
    cases v with
    | scalar sp => constructor <;> intro h <;> cases h
    | seq sp l => constructor <;> intro h <;> cases h
    | map sp l =>
      have := lookup_iff (k := DKey.str (env.upper s)) (ht sp l .self).1 w
      constructor
      · intro h; exact .str (this.1 h)
      · intro h; cases h with | str h => exact this.2 h
  | idx i =>
    cases v with
    | scalar sp => constructor <;> intro h <;> cases h
    | map sp l => constructor <;> intro h <;> cases h
    | seq sp l =>
      constructor
      · intro h; exact .idx h
      · intro h; cases h with | idx h => exact h
  | date d =>
    cases v with
    | scalar sp => constructor <;> intro h <;> cases h
    | seq sp l => constructor <;> intro h <;> cases h
    | map sp l =>
      rcases (ht sp l .self).2 with h0 | ⟨h1, h2⟩
      · constructor
        · intro h
          have h : findDate env d l = some w := h
          rw [findDate_none h0] at h
          cases h
        · intro h
          cases h with | date hm hk =>
          have := h0 _ hm
          dsimp only at this
          rw [this] at hk
          cases hk
      · have := findDate_iff (d := d) h1 h2 w
        constructor
        · intro h
          obtain ⟨k, hm, hk⟩ := this.1 h
          exact .date hm hk
        · intro h; cases h with | date hm hk => exact this.2 ⟨_, hm, hk⟩

theorem Inside.trans {u v w : Val} (h : Inside u v) (h' : Inside v w) : Inside u w := by
  induction h with
  | self => exact h'
  | seq hm _ ih => exact .seq hm (ih h')
  | map hm _ ih => exact .map hm (ih h')

theorem Elem.inside {v w : Val} {k : PKey} (h : Elem env v k w) : Inside v w := by
  cases h with
  | str h => exact .map h .self
  | idx h => exact .seq (List.mem_of_getElem? h) .self
  | date h _ => exact .map h .self

theorem Leads.inside {v w : Val} {p : List PKey} (h : Leads env v p w) : Inside v w := by
  induction h with
  | here => exact .self
  | there h _ ih => exact h.inside.trans ih

theorem Tidy.inside {v w : Val} (h : Tidy env v) (hi : Inside v w) : Tidy env w :=
  fun sp l hw => h sp l (hi.trans hw)

theorem Leads.append {v w u : Val} {p q : List PKey} (h : Leads env v p w) (h' : Leads env w q u) : Leads env v (p ++ q) u := by
  induction h with
  | here => exact h'
  | there h _ ih => exact .there h (ih h')

theorem Elem.unique {v w w' : Val} {k : PKey} (ht : Tidy env v) (h : Elem env v k w) (h' : Elem env v k w') : w = w' := by
  rw [← step_iff ht] at h h'
  rw [h] at h'
  exact Option.some.inj h'

theorem Leads.unique {v w w' : Val} {p : List PKey} (ht : Tidy env v) (h : Leads env v p w) (h' : Leads env v p w') : w = w' := by
  induction h generalizing w' with
  | here => cases h'; rfl
  | there h _ ih =>
    cases h' with
    | there h1 h2 =>
      have e := h.unique ht h1
      subst e
      exact ih (ht.inside h.inside) h2

/-- No mapping on the path after its start. -/
def Plain (env : Env) (v : Val) (p : List PKey) : Prop :=
  ∀ a b u, p = a ++ b → a ≠ [] → Leads env v a u → u.isMap = false

theorem closest_spec (env : Env) : ∀ (p : List PKey) (v : Val) (best : Span), Tidy env v →
    ∃ p1 p2 w, p = p1 ++ p2 ∧ Leads env v p1 w ∧ (∀ k r, p2 = k :: r → ∀ u, ¬ Elem env w k u) ∧
      ((closest env false v best p = best ∧ Plain env v p1) ∨
        ∃ q1 q2 m, p1 = q1 ++ q2 ∧ Leads env v q1 m ∧ m.isMap = true ∧ closest env false v best p = m.span ∧ Plain env m q2)
  | [], v, best, _ => ⟨[], [], v, rfl, .here, by simp, .inl ⟨rfl, by
      intro a b u h ha
      simp only [List.nil_eq, List.append_eq_nil_iff] at h
      exact absurd h.1 ha⟩⟩
  | k :: p, v, best, ht => by
    rw [closest]
    cases hs : step env v k with
    | none =>
      refine ⟨[], k :: p, v, rfl, .here, ?_, .inl ⟨rfl, ?_⟩⟩
      · intro k' r e u hu
        cases e
        rw [← step_iff ht, hs] at hu
        cases hu
      · intro a b u h ha
        simp only [List.nil_eq, List.append_eq_nil_iff] at h
        exact absurd h.1 ha
    | some w =>
      dsimp only
      have he := (step_iff ht k w).1 hs
      obtain ⟨p1, p2, x, hp, hl, hx, hc⟩ :=
        closest_spec env p w (if w.isMap = true then w.span else best) (ht.inside he.inside)
      refine ⟨k :: p1, p2, x, by rw [hp]; rfl, .there he hl, hx, ?_⟩
      rcases hc with ⟨hb, hpl⟩ | ⟨q1, q2, m, hq, hm, him, hb, hpl⟩
      · by_cases hw : w.isMap = true
        · rw [if_pos hw] at hb ⊢
          exact .inr ⟨[k], p1, w, rfl, .there he .here, hw, hb, hpl⟩
        · rw [if_neg hw] at hb ⊢
          refine .inl ⟨hb, ?_⟩
          intro a b u h ha hu
          cases a with
          | nil => exact absurd rfl ha
          | cons k' a' =>
            rw [List.cons_append] at h
            injection h with h1 h2
            subst h1
            cases hu with
            | there h3 h4 =>
              have e := he.unique ht h3
              subst e
              by_cases ha' : a' = []
              · subst ha'; cases h4; simpa using hw
              · exact hpl a' b u h2 ha' h4
      · exact .inr ⟨k :: q1, q2, m, by rw [hq]; rfl, .there he hm, him, hb, hpl⟩

/-- **C99 (the context).** The path is followed as far as there is something in the file (`p₁`; what comes next is not there), and
the context is the place of the last mapping on the way. -/
theorem C99_context (env : Env) (name : String) (v : Val) (hv : v.isMap = true) (ht : Tidy env v) (p : List PKey) :
    ∃ p₁ p₂ w q₁ q₂ m, p = p₁ ++ p₂ ∧ Leads env v p₁ w ∧ (∀ k r, p₂ = k :: r → ∀ u, ¬ Elem env w k u) ∧
      p₁ = q₁ ++ q₂ ∧ Leads env v q₁ m ∧ m.isMap = true ∧ Plain env m q₂ ∧
      fileContext env name v p = ⟨name, (m.span.start.1 + 1, m.span.start.2), (m.span.stop.1 + 1, m.span.stop.2)⟩ := by
  obtain ⟨p1, p2, w, hp, hl, hw, hc⟩ := closest_spec env p v v.span ht
  rcases hc with ⟨hb, hpl⟩ | ⟨q1, q2, m, hq, hm, him, hb, hpl⟩
  · exact ⟨p1, p2, w, [], p1, v, hp, hl, hw, rfl, .here, hv, hpl, by rw [fileContext, hb]; rfl⟩
  · exact ⟨p1, p2, w, q1, q2, m, hp, hl, hw, hq, hm, him, hpl, by rw [fileContext, hb]; rfl⟩

theorem closest_leads {p q : List PKey} {v w : Val} {best : Span} (ht : Tidy env v) (h : Leads env v p w) (hw : w.isMap = true)
    (hb : best = v.span ∨ v.isMap = false) : closest env false v best (p ++ q) = closest env false w w.span q := by
  induction h generalizing best with
  | here =>
    rcases hb with rfl | hb
    · rfl
    · rw [hb] at hw; cases hw
  | @there v k x p u he hl ih =>
    rw [List.cons_append, closest, (step_iff ht k x).2 he]
    dsimp only
    apply ih (ht.inside he.inside) hw
    by_cases hx : x.isMap = true
    · exact .inl (if_pos hx)
    · exact .inr (by simpa using hx)

/-- **C99 (an error about a mapping, or about what is in it).** If the path leads to a mapping, the context is this mapping. The
same for a keyword that is not in the mapping, whatever follows, and for a keyword with a plain value. -/
theorem C99_mapping (env : Env) (name : String) (v : Val) (ht : Tidy env v) (p : List PKey) (sp : Span)
    (l : List (DKey × Val)) (h : Leads env v p (.map sp l)) :
    fileContext env name v p = ⟨name, (sp.start.1 + 1, sp.start.2), (sp.stop.1 + 1, sp.stop.2)⟩ ∧
    (∀ k r, (∀ u, ¬ Elem env (.map sp l) k u) → fileContext env name v (p ++ k :: r) = fileContext env name v p) ∧
    (∀ k s, Elem env (.map sp l) k (.scalar s) → ∀ r, fileContext env name v (p ++ k :: r) = fileContext env name v p) := by
  have hgen : ∀ q, closest env false v v.span (p ++ q) = closest env false (.map sp l) sp q :=
    fun q => closest_leads ht h rfl (.inl rfl)
  have h0 : closest env false v v.span p = sp := by
    have := hgen []
    rwa [List.append_nil] at this
  refine ⟨by rw [fileContext, h0]; rfl, ?_, ?_⟩
  · intro k r hk
    rw [fileContext, fileContext, hgen, h0, closest]
    cases hs : step env (.map sp l) k with
    | none => rfl
    | some w => exact absurd ((step_iff (ht.inside h.inside) k w).1 hs) (hk w)
  · intro k s hk r
    rw [fileContext, fileContext, hgen, h0, closest, (step_iff (ht.inside h.inside) k _).2 hk]
    dsimp only
    rw [if_neg (by simp [Val.isMap])]
    cases r with
    | nil => rfl
    | cons k' r =>
      rw [closest]
      have : step env (.scalar s) k' = none := by cases k' <;> rfl
      rw [this]
      rfl

theorem before.trans {a b c : ℕ × ℕ} (h : before a b) (h' : before b c) : before a c := by
  unfold before at *
  omega

theorem Within.trans {a b c : Span} (h : Within a b) (h' : Within b c) : Within a c :=
  ⟨h.1.trans h'.1, h'.2.1.trans h.2.1, h.2.2.trans h'.2.2⟩

/-- **C99 (the context contains the error).** If everything is in the main file, the context is a part of this file that contains
the value that the error is about. -/
theorem C99_encloses (env : Env) (name : String) (v : Val) (hv : v.isMap = true) (ht : Tidy env v) (hp : Proper v)
    (p : List PKey) (w : Val) (h : Leads env v p w) :
    ∃ s : Span, Within w.span s ∧ Within s v.span ∧
      fileContext env name v p = ⟨name, (s.start.1 + 1, s.start.2), (s.stop.1 + 1, s.stop.2)⟩ := by
  obtain ⟨p1, p2, x, q1, q2, m, e, hl, hx, e', hm, him, _, hc⟩ := C99_context env name v hv ht p
  refine ⟨m.span, ?_, hp v m .self hm.inside, hc⟩
  -- the whole path is followed
  have hp2 : p2 = [] := by
    cases p2 with
    | nil => rfl
    | cons k r =>
      exfalso
      rw [e] at h
      have : ∀ (a : List PKey) (v : Val), Tidy env v → Leads env v a x → Leads env v (a ++ k :: r) w → False := by
        intro a
        induction a with
        | nil => intro v _ h1 h2; cases h1; cases h2 with | there h3 _ => exact hx k r rfl _ h3
        | cons b a ih =>
          intro v ht h1 h2
          cases h1 with
          | there h3 h4 =>
            cases h2 with
            | there h5 h6 =>
              have := h3.unique ht h5
              subst this
              exact ih _ (ht.inside h3.inside) h4 h6
      exact this p1 v ht hl h
  subst hp2
  rw [List.append_nil] at e
  subst e
  have := hl.unique ht h
  subst this
  have : ∀ (a : List PKey) (v : Val), Tidy env v → Leads env v a m → Leads env v (a ++ q2) x → Inside m x := by
    intro a
    induction a with
    | nil => intro v _ h1 h2; cases h1; exact h2.inside
    | cons b a ih =>
      intro v ht h1 h2
      cases h1 with
      | there h3 h4 =>
        cases h2 with
        | there h5 h6 =>
          have := h3.unique ht h5
          subst this
          exact ih _ (ht.inside h3.inside) h4 h6
  rw [e'] at hl
  exact hp m x hm.inside (this q1 v ht hm hl)

/-! ### Dates -/

/-- **C99 (dates).** A date as key finds the value in force from this date on, if the keys of the mapping are different dates;
if the definition does not start with this date, or is not split by dates, the context is that of the mapping. -/
theorem C99_date (env : Env) (name : String) (v : Val) (ht : Tidy env v) (p : List PKey) (sp : Span)
    (l : List (DKey × Val)) (h : Leads env v p (.map sp l)) (d : ℤ) :
    (∀ k sp' l', (k, Val.map sp' l') ∈ l → env.parse k = some d →
      fileContext env name v (p ++ [.date d]) =
        ⟨name, (sp'.start.1 + 1, sp'.start.2), (sp'.stop.1 + 1, sp'.stop.2)⟩) ∧
    ((∀ x ∈ l, env.parse x.1 ≠ some d) → ∀ r, fileContext env name v (p ++ .date d :: r) = fileContext env name v p) := by
  constructor
  · intro k sp' l' hm hk
    exact (C99_mapping env name v ht (p ++ [.date d]) sp' l' (h.append (.there (.date hm hk) .here))).1
  · intro hd r
    refine (C99_mapping env name v ht p sp l h).2.1 _ r ?_
    intro u hu
    cases hu with
    | date hm hk => exact hd _ hm hk

/-- **FINDING.** A key that is not a date hides the dates behind it: the definition of that date is there, but is not found. -/
theorem C99_date_hidden (env : Env) (name : String) (sp sp' : Span) (k k' : DKey) (w : Val) (l' : List (DKey × Val)) (d : ℤ)
    (hk : env.parse k = none) (r : List PKey) :
    fileContext env name (.map sp [(k, w), (k', .map sp' l')]) (.date d :: r) =
      ⟨name, (sp.start.1 + 1, sp.start.2), (sp.stop.1 + 1, sp.stop.2)⟩ := by
  have : step env (.map sp [(k, w), (k', .map sp' l')]) (.date d) = none := by
    show findDate env d _ = none
    rw [findDate, hk]
  rw [fileContext, closest, this]
  rfl

/-- **FINDING.** Names that are given by the user and are not in capitals are never found: the context is that of the mapping that
has the named thing, whatever is wrong in it. -/
theorem C99_lower_case (env : Env) (name : String) (v : Val) (ht : Tidy env v) (p : List PKey) (sp : Span)
    (l : List (DKey × Val)) (h : Leads env v p (.map sp l)) (s : String) (w : Val) (_ : (DKey.str s, w) ∈ l)
    (hu : ∀ x ∈ l, x.1 ≠ .str (env.upper s)) (r : List PKey) :
    fileContext env name v (p ++ .str s :: r) = ⟨name, (sp.start.1 + 1, sp.start.2), (sp.stop.1 + 1, sp.stop.2)⟩ := by
  obtain ⟨h0, h1, _⟩ := C99_mapping env name v ht p sp l h
  rw [h1 _ r, h0]
  intro u he
  cases he with
  | str hm => exact hu _ hm rfl

/-- **FINDING.** The name in the context is always that of the main file, and the line that of the file in which the mapping
is. -/
theorem C99_included (env : Env) (name other : String) (hn : name ≠ other) (key : String) (hk : env.upper key = key) :
    ∃ v : Val, v.span.file = name ∧ ∃ w, Leads env v [.str key] w ∧ w.isMap = true ∧ w.span.file = other ∧
      w.span.file ≠ name ∧ w.span.start.1 = 6 ∧ fileContext env name v [.str key] = ⟨name, (7, 0), (9, 0)⟩ := by
  refine ⟨.map ⟨name, (0, 0), (2, 0)⟩ [(.str key, .map ⟨other, (6, 0), (8, 0)⟩ [])], rfl,
    .map ⟨other, (6, 0), (8, 0)⟩ [], .there (.str ?_) .here, rfl, rfl, Ne.symm hn, rfl, ?_⟩
  · rw [hk]; exact List.mem_singleton.2 rfl
  · rw [fileContext, closest]
    have : step env (.map ⟨name, (0, 0), (2, 0)⟩ [(.str key, .map ⟨other, (6, 0), (8, 0)⟩ [])]) (.str key) =
        some (.map ⟨other, (6, 0), (8, 0)⟩ []) := by
      show lookup _ _ = _
      rw [lookup, hk, if_pos rfl]
    rw [this]
    rfl

/-! ### Errors found by pydantic -/

/-- What pydantic adds to a path for definitions that may be split by dates. -/
def added (k : PKey) : Bool := k = .str "single" || k = .str "temporal"

theorem yamlPath_eq (locs : List PKey) : yamlPath locs = locs.filter fun k => !added k := by
  have : ∀ (locs acc : List PKey), locs.foldl (fun acc loc => if loc = .str "single" ∨ loc = .str "temporal" then acc
      else acc ++ [loc]) acc = acc ++ locs.filter fun k => !added k := by
    intro locs
    induction locs with
    | nil => intro acc; simp
    | cons k locs ih =>
      intro acc
      rw [List.foldl_cons, ih]
      by_cases h : k = .str "single" ∨ k = .str "temporal"
      · have ha : added k = true := by simpa [added] using h
        rw [if_pos h, List.filter_cons_of_neg (by simp [ha])]
      · have ha : added k = false := by simpa [added] using h
        rw [if_neg h, List.filter_cons_of_pos (by simp [ha])]
        simp
  exact (this locs []).trans (List.nil_append _)

/-- What is shown for a key of pydantic's path: the date if it is the text of one, and the key itself otherwise. -/
inductive Shown (dateRepr : String → Option (ℕ × ℕ × ℕ)) : PKey → Option LKey → Prop
  | date {s y m d} : dateRepr s = some (y, m, d) → Shown dateRepr (.str s) (some (.date y m d))
  | text {s} : dateRepr s = none → Shown dateRepr (.str s) (some (.str s.toList))
  | number {i} : Shown dateRepr (.idx i) (some (.idx i))
  | other {d} : Shown dateRepr (.date d) none

theorem shown_parse (dateRepr : String → Option (ℕ × ℕ × ℕ)) (k : PKey) : Shown dateRepr k (parseKey dateRepr k) := by
  cases k with
  | str s =>
    unfold parseKey
    dsimp only
    cases h : dateRepr s with
    | none => exact .text h
    | some x => exact .date h
  | idx i => exact .number
  | date d => exact .other

theorem shown_path (dateRepr : String → Option (ℕ × ℕ × ℕ)) (p : List PKey) :
    List.Forall₂ (Shown dateRepr) p (p.map (parseKey dateRepr)) := by
  induction p with
  | nil => exact .nil
  | cons k p ih => exact .cons (shown_parse _ k) ih

/-- **C99 (every error).** Every error of pydantic is reported, in order, with the path without what pydantic added to it, both
in the location and in the context. -/
theorem C99_errors (env : Env) (dateRepr : String → Option (ℕ × ℕ × ℕ)) (name : String) (data : Val) (errors : List PyErr) :
    List.Forall₂ (fun e (r : ModelError) =>
      List.Forall₂ (Shown dateRepr) (e.loc.filter fun k => !added k) r.location ∧
      r.context = fileContext env name data (e.loc.filter fun k => !added k) ∧
      (∀ m, e.custom = some m → r.message = m) ∧
      (e.custom = none → e.type_ ≠ "assertion_error" → e.type_ ≠ "value_error" → r.message = e.msg))
      errors (validate env dateRepr name data errors) := by
  induction errors with
  | nil => exact .nil
  | cons e errors ih =>
    refine .cons ⟨?_, ?_, ?_, ?_⟩ ih
    · dsimp only; rw [yamlPath_eq]; exact shown_path _ _
    · dsimp only; rw [yamlPath_eq]
    · intro m hm; simp [customMessage, hm]
    · intro hm h1 h2; simp [customMessage, hm, h1, h2]

/-- **C99 (messages).** What pydantic puts before the text of an error of eCalc is removed, and only this. -/
theorem C99_messages (e : PyErr) (hc : e.custom = none) (text : String) :
    (e.type_ = "assertion_error" → e.msg = "Assertion failed, " ++ text → customMessage e = text) ∧
    (e.type_ = "value_error" → e.msg = "Value error, " ++ text → customMessage e = text) := by
  have hr : ∀ (pre : String), String.ofList (removePrefix pre.toList (pre ++ text).toList) = text := by
    intro pre
    have : (pre ++ text).toList = pre.toList ++ text.toList := by simp
    rw [this, removePrefix, if_pos (by simp [List.isPrefixOf_iff_prefix])]
    simp
  constructor
  · intro h1 h2
    have : ¬ ("assertion_error" = "value_error") := by decide
    simp only [customMessage, hc, h1, h2, if_true, if_neg this]
    exact hr _
  · intro h1 h2
    have : ¬ ("value_error" = "assertion_error") := by decide
    simp only [customMessage, hc, h1, h2, if_true, if_neg this]
    exact hr _

/-- **FINDING.** A thing that the user calls `single` or `temporal` is missing from the locations of errors in it. -/
theorem C99_single (pre post : List PKey) (s : String) (h : s = "single" ∨ s = "temporal") :
    yamlPath (pre ++ .str s :: post) = yamlPath (pre ++ post) := by
  rw [yamlPath_eq, yamlPath_eq, List.filter_append, List.filter_append, List.filter_cons_of_neg]
  rcases h with rfl | rfl <;> simp [added]

/-! ### The text of a location -/

/-- Keys whose text cannot be mistaken: names that are not empty, have no dots and brackets and do not look like dates. -/
def Clear : LKey → Prop
  | .str s => s ≠ [] ∧ '.' ∉ s ∧ '[' ∉ s ∧ ∀ y m d, s ≠ dateText y m d
  | .idx _ => True
  | .date _ m d => m < 100 ∧ d < 100

/-- The text of a key that is not the first. -/
def seg : LKey → List Char
  | .str s => '.' :: s
  | .idx n => '[' :: (Nat.toDigits 10 n ++ [']'])
  | .date y m d => '.' :: dateText y m d

theorem foldl_seg : ∀ (keys : List LKey) (n : ℕ) (acc : List Char), 0 < n →
    (keys.zipIdx n).foldl (fun path x => addKey x.2 path x.1) acc = acc ++ keys.flatMap seg
  | [], _, acc, _ => by simp
  | k :: keys, n, acc, h => by
    rw [List.zipIdx_cons, List.foldl_cons, foldl_seg keys (n + 1) _ (by omega), List.flatMap_cons, ← List.append_assoc]
    congr 1
    cases k <;> simp [addKey, seg, h]

theorem dotSeparated_cons (k : LKey) (keys : List LKey) :
    dotSeparated (k :: keys) = addKey 0 [] k ++ keys.flatMap seg := by
  rw [dotSeparated, List.zipIdx_cons, List.foldl_cons]
  exact foldl_seg keys 1 _ (by omega)

/-- Starts a key that is not the first. -/
def isSep (c : Char) : Bool := c = '.' || c = '['

theorem split_unique {a a' r r' : List Char} (ha : ∀ c ∈ a, isSep c = false) (ha' : ∀ c ∈ a', isSep c = false)
    (hr : ∀ c t, r = c :: t → isSep c = true) (hr' : ∀ c t, r' = c :: t → isSep c = true) (h : a ++ r = a' ++ r') :
    a = a' ∧ r = r' := by
  induction a generalizing a' with
  | nil =>
    cases a' with
    | nil => exact ⟨rfl, h⟩
    | cons c a' =>
      have := hr c (a' ++ r') h
      rw [ha' c List.mem_cons_self] at this
      cases this
  | cons c a ih =>
    cases a' with
    | nil =>
      have := hr' c (a ++ r) h.symm
      rw [ha c List.mem_cons_self] at this
      cases this
    | cons c' a' =>
      rw [List.cons_append, List.cons_append] at h
      injection h with h1 h2
      obtain ⟨e1, e2⟩ := ih (fun x hx => ha x (List.mem_cons_of_mem _ hx)) (fun x hx => ha' x (List.mem_cons_of_mem _ hx)) h2
      exact ⟨by rw [h1, e1], e2⟩

theorem digits_isDigit {n : ℕ} {c : Char} (h : c ∈ Nat.toDigits 10 n) : c.isDigit = true :=
  Nat.isDigit_of_mem_toDigits (by decide) (by decide) h

theorem toDigits_inj {n m : ℕ} (h : Nat.toDigits 10 n = Nat.toDigits 10 m) : n = m := by
  have := congrArg (fun l => Nat.ofDigitChars 10 l 0) h
  rwa [Nat.ofDigitChars_ten_toDigits, Nat.ofDigitChars_ten_toDigits] at this

theorem isDigit_ne {c : Char} (h : c.isDigit = true) : c ≠ '.' ∧ c ≠ '[' ∧ c ≠ '-' ∧ c ≠ ']' := by
  refine ⟨?_, ?_, ?_, ?_⟩ <;> (rintro rfl; revert h; decide)

theorem twoDigits_isDigit {n : ℕ} {c : Char} (h : c ∈ twoDigits n) : c.isDigit = true := by
  unfold twoDigits at h
  by_cases hn : n < 10
  · rw [if_pos hn] at h
    rcases List.mem_cons.1 h with rfl | h
    · decide
    · exact digits_isDigit h
  · rw [if_neg hn] at h
    exact digits_isDigit h

theorem twoDigits_inj : ∀ n < 100, ∀ m < 100, twoDigits n = twoDigits m → n = m := by
  decide +kernel

theorem minus_split {a a' r r' : List Char} (ha : ∀ c ∈ a, c.isDigit = true) (ha' : ∀ c ∈ a', c.isDigit = true)
    (h : a ++ '-' :: r = a' ++ '-' :: r') : a = a' ∧ r = r' := by
  induction a generalizing a' with
  | nil =>
    cases a' with
    | nil => injection h with _ h; exact ⟨rfl, h⟩
    | cons c a' =>
      injection h with h1 _
      have := (isDigit_ne (ha' c List.mem_cons_self)).2.2.1
      exact absurd h1.symm this
  | cons c a ih =>
    cases a' with
    | nil =>
      injection h with h1 _
      have := (isDigit_ne (ha c List.mem_cons_self)).2.2.1
      exact absurd h1 this
    | cons c' a' =>
      rw [List.cons_append, List.cons_append] at h
      injection h with h1 h2
      obtain ⟨e1, e2⟩ := ih (fun x hx => ha x (List.mem_cons_of_mem _ hx)) (fun x hx => ha' x (List.mem_cons_of_mem _ hx)) h2
      exact ⟨by rw [h1, e1], e2⟩

theorem dateText_inj {y m d y' m' d' : ℕ} (hm : m < 100) (hd : d < 100) (hm' : m' < 100) (hd' : d' < 100)
    (h : dateText y m d = dateText y' m' d') : y = y' ∧ m = m' ∧ d = d' := by
  unfold dateText at h
  obtain ⟨h1, h2⟩ := minus_split (fun c hc => digits_isDigit hc) (fun c hc => digits_isDigit hc) h
  obtain ⟨h3, h4⟩ := minus_split (fun c hc => twoDigits_isDigit hc) (fun c hc => twoDigits_isDigit hc) h2
  exact ⟨toDigits_inj h1, twoDigits_inj m hm m' hm' h3, twoDigits_inj d hd d' hd' h4⟩

theorem dateText_noSep {y m d : ℕ} : ∀ c ∈ dateText y m d, isSep c = false := by
  intro c hc
  unfold dateText at hc
  have : c.isDigit = true ∨ c = '-' := by
    simp only [List.mem_append, List.mem_cons] at hc
    rcases hc with h | rfl | h | rfl | h
    · exact .inl (digits_isDigit h)
    · exact .inr rfl
    · exact .inl (twoDigits_isDigit h)
    · exact .inr rfl
    · exact .inl (twoDigits_isDigit h)
  rcases this with h | rfl
  · have := isDigit_ne h
    simp [isSep, this.1, this.2.1]
  · decide

theorem clear_noSep {s : List Char} (h1 : '.' ∉ s) (h2 : '[' ∉ s) : ∀ c ∈ s, isSep c = false := by
  intro c hc
  have e1 : c ≠ '.' := fun e => h1 (e ▸ hc)
  have e2 : c ≠ '[' := fun e => h2 (e ▸ hc)
  simp [isSep, e1, e2]

theorem idx_noSep {n : ℕ} : ∀ c ∈ Nat.toDigits 10 n ++ [']'], isSep c = false := by
  intro c hc
  rcases List.mem_append.1 hc with h | h
  · have := isDigit_ne (digits_isDigit h)
    simp [isSep, this.1, this.2.1]
  · rw [List.mem_singleton.1 h]; decide

theorem flat_sep (keys : List LKey) : ∀ c t, keys.flatMap seg = c :: t → isSep c = true := by
  intro c t h
  cases keys with
  | nil => cases h
  | cons k keys =>
    rw [List.flatMap_cons] at h
    cases k <;> (rw [seg, List.cons_append] at h; injection h with h _; subst h; decide)

/-- Head and rest of a key's text. -/
theorem seg_split {k k' : LKey} {r r' : List Char} (hk : Clear k) (hk' : Clear k') (hr : ∀ c t, r = c :: t → isSep c = true)
    (hr' : ∀ c t, r' = c :: t → isSep c = true) (h : seg k ++ r = seg k' ++ r') : k = k' ∧ r = r' := by
  have bracket : ('.' : Char) ≠ '[' := by decide
  cases k with
  | str s =>
    obtain ⟨_, hs1, hs2, hs3⟩ := hk
    cases k' with
    | str s' =>
      obtain ⟨_, hs1', hs2', _⟩ := hk'
      rw [seg, seg, List.cons_append, List.cons_append] at h
      injection h with _ h
      obtain ⟨e1, e2⟩ := split_unique (clear_noSep hs1 hs2) (clear_noSep hs1' hs2') hr hr' h
      exact ⟨by rw [e1], e2⟩
    | idx n => rw [seg, seg, List.cons_append, List.cons_append] at h; injection h with h _; exact absurd h bracket
    | date y m d =>
      rw [seg, seg, List.cons_append, List.cons_append] at h
      injection h with _ h
      obtain ⟨e1, _⟩ := split_unique (clear_noSep hs1 hs2) dateText_noSep hr hr' h
      exact absurd e1 (hs3 y m d)
  | idx n =>
    cases k' with
    | str s' => rw [seg, seg, List.cons_append, List.cons_append] at h; injection h with h _; exact absurd h.symm bracket
    | idx n' =>
      rw [seg, seg, List.cons_append, List.cons_append] at h
      injection h with _ h
      obtain ⟨e1, e2⟩ := split_unique idx_noSep idx_noSep hr hr' h
      have := toDigits_inj (List.append_cancel_right e1)
      exact ⟨by rw [this], e2⟩
    | date y m d => rw [seg, seg, List.cons_append, List.cons_append] at h; injection h with h _; exact absurd h.symm bracket
  | date y m d =>
    cases k' with
    | str s' =>
      obtain ⟨_, hs1', hs2', hs3'⟩ := hk'
      rw [seg, seg, List.cons_append, List.cons_append] at h
      injection h with _ h
      obtain ⟨e1, _⟩ := split_unique dateText_noSep (clear_noSep hs1' hs2') hr hr' h
      exact absurd e1.symm (hs3' y m d)
    | idx n => rw [seg, seg, List.cons_append, List.cons_append] at h; injection h with h _; exact absurd h bracket
    | date y' m' d' =>
      rw [seg, seg, List.cons_append, List.cons_append] at h
      injection h with _ h
      obtain ⟨e1, e2⟩ := split_unique dateText_noSep dateText_noSep hr hr' h
      obtain ⟨rfl, rfl, rfl⟩ := dateText_inj hk.1 hk.2 hk'.1 hk'.2 e1
      exact ⟨rfl, e2⟩

theorem flat_inj : ∀ (p q : List LKey), (∀ k ∈ p, Clear k) → (∀ k ∈ q, Clear k) → p.flatMap seg = q.flatMap seg → p = q
  | [], [], _, _, _ => rfl
  | [], k :: q, _, _, h => by rw [List.flatMap_cons] at h; cases k <;> cases h
  | k :: p, [], _, _, h => by rw [List.flatMap_cons] at h; cases k <;> cases h
  | k :: p, k' :: q, hp, hq, h => by
    rw [List.flatMap_cons, List.flatMap_cons] at h
    obtain ⟨e1, e2⟩ := seg_split (hp k List.mem_cons_self) (hq k' List.mem_cons_self) (flat_sep p) (flat_sep q) h
    rw [e1, flat_inj p q (fun x hx => hp x (List.mem_cons_of_mem _ hx)) (fun x hx => hq x (List.mem_cons_of_mem _ hx)) e2]

/-- The first key: a name is written as it is, everything else as later. -/
theorem first_key (k : LKey) (hk : Clear k) :
    (∃ s c t, k = .str s ∧ s = c :: t ∧ isSep c = false ∧ addKey 0 [] k = s) ∨
      (addKey 0 [] k = seg k ∧ ∃ c t, seg k = c :: t ∧ isSep c = true ∧ ∀ s, k ≠ .str s) := by
  cases k with
  | str s =>
    obtain ⟨h0, h1, h2, _⟩ := hk
    cases s with
    | nil => exact absurd rfl h0
    | cons c t => exact .inl ⟨_, c, t, rfl, rfl, clear_noSep h1 h2 c List.mem_cons_self, by simp [addKey]⟩
  | idx n => exact .inr ⟨by simp [addKey, seg], '[', _, rfl, by decide, fun s h => by cases h⟩
  | date y m d => exact .inr ⟨by simp [addKey, seg], '.', _, rfl, by decide, fun s h => by cases h⟩

/-- **C99 (locations can be told apart).** Two paths of clear keys that are shown the same way are the same path. -/
theorem C99_location (p q : List LKey) (hp : ∀ k ∈ p, Clear k) (hq : ∀ k ∈ q, Clear k)
    (h : dotSeparated p = dotSeparated q) : p = q := by
  cases p with
  | nil =>
    cases q with
    | nil => rfl
    | cons k q =>
      rw [dotSeparated_cons] at h
      have h : [] = _ := h
      rcases first_key k (hq k List.mem_cons_self) with ⟨s, c, t, _, hs, _, e⟩ | ⟨e, c, t, hs, _⟩ <;>
        (rw [e, hs] at h; cases h)
  | cons k p =>
    cases q with
    | nil =>
      rw [dotSeparated_cons] at h
      have h : _ = [] := h
      rcases first_key k (hp k List.mem_cons_self) with ⟨s, c, t, _, hs, _, e⟩ | ⟨e, c, t, hs, _⟩ <;>
        (rw [e, hs] at h; cases h)
    | cons k' q =>
      rw [dotSeparated_cons, dotSeparated_cons] at h
      have hp' : ∀ x ∈ p, Clear x := fun x hx => hp x (List.mem_cons_of_mem _ hx)
      have hq' : ∀ x ∈ q, Clear x := fun x hx => hq x (List.mem_cons_of_mem _ hx)
      rcases first_key k (hp k List.mem_cons_self) with ⟨s, c, t, rfl, hs, hc, e⟩ | ⟨e, c, t, hs, hc, _⟩
      · rcases first_key k' (hq k' List.mem_cons_self) with ⟨s', c', t', rfl, hs', hc', e'⟩ | ⟨e', c', t', hs', hc', _⟩
        · rw [e, e'] at h
          obtain ⟨_, a1, a2, _⟩ := hp _ List.mem_cons_self
          obtain ⟨_, b1, b2, _⟩ := hq _ List.mem_cons_self
          obtain ⟨e1, e2⟩ := split_unique (clear_noSep a1 a2) (clear_noSep b1 b2) (flat_sep p) (flat_sep q) h
          rw [e1, flat_inj p q hp' hq' e2]
        · rw [e, e', hs, hs'] at h
          injection h with h _
          rw [h, hc'] at hc
          cases hc
      · rcases first_key k' (hq k' List.mem_cons_self) with ⟨s', c', t', rfl, hs', hc', e'⟩ | ⟨e', c', t', hs', hc', _⟩
        · rw [e, e', hs, hs'] at h
          injection h with h _
          rw [h, hc'] at hc
          cases hc
        · rw [e, e'] at h
          obtain ⟨e1, e2⟩ := seg_split (hp k List.mem_cons_self) (hq k' List.mem_cons_self) (flat_sep p) (flat_sep q) h
          rw [e1, flat_inj p q hp' hq' e2]

/-! ### Names in the place of numbers -/

/-- **C99 (names).** In the location of an error, the number of a component in its list is replaced by its name, and nothing else
is changed. -/
theorem C99_names (r : Registered) (p : List PKey) :
    (locationKeys r [] p).length = p.length ∧
    ∀ a k b, p = a ++ k :: b →
      ((∀ i, k ≠ .idx i) → (locationKeys r [] p)[a.length]? = some (.key k)) ∧
      (∀ i s, k = .idx i → r.name (a ++ [k]) = some s → s ≠ "" → (locationKeys r [] p)[a.length]? = some (.name s)) ∧
      (r.name (a ++ [k]) = none ∨ r.name (a ++ [k]) = some "" →
        (locationKeys r [] p)[a.length]? = some (.key k)) := by
  have hlen : ∀ (p c : List PKey), (locationKeys r c p).length = p.length := by
    intro p
    induction p with
    | nil => intro c; rfl
    | cons k p ih => intro c; rw [locationKeys, List.length_cons, ih, List.length_cons]
  have hget : ∀ (a : List PKey) (k : PKey) (b c : List PKey), (locationKeys r c (a ++ k :: b))[a.length]? =
      some (locationKey r (c ++ a ++ [k]) k) := by
    intro a
    induction a with
    | nil => intro k b c; simp [locationKeys]
    | cons x a ih =>
      intro k b c
      rw [List.cons_append, locationKeys, List.length_cons, List.getElem?_cons_succ, ih]
      simp
  refine ⟨hlen p [], ?_⟩
  rintro a k b rfl
  rw [hget]
  refine ⟨?_, ?_, ?_⟩
  · intro hk
    cases k with
    | idx i => exact absurd rfl (hk i)
    | str s => rfl
    | date d => rfl
  · rintro i s rfl hn hs
    rw [List.nil_append]
    simp [locationKey, nameOr, hs, hn]
  · intro hn
    rw [List.nil_append]
    rcases hn with hn | hn <;> cases k <;> simp [locationKey, nameOr, hn]

/-- **C99 (references).** An error in what a reference stands for is located at the definition — by its name instead of its number
— and its context is the definition itself, also when the error is about a keyword of it with a plain value or without one. -/
theorem C99_reference (env : Env) (name : String) (v : Val) (ht : Tidy env v) (pre : List PKey) (last : PKey) (sp : Span)
    (l : List (DKey × Val)) (h : Leads env v (pre ++ [last]) (.map sp l)) (reference : String) (key : Option String)
    (hk : ∀ k, key = some k → ∀ u, Elem env (.map sp l) (.str k) u → ∃ s, u = .scalar s) :
    referenceError env name v (pre ++ [last]) reference key =
      (pre.map .key ++ .name reference :: (key.toList.map fun k => NKey.key (.str k)),
        ⟨name, (sp.start.1 + 1, sp.start.2), (sp.stop.1 + 1, sp.stop.2)⟩) := by
  obtain ⟨h0, h1, h2⟩ := C99_mapping env name v ht _ sp l h
  cases key with
  | none => simp [referenceError, h0]
  | some k =>
    have hctx : fileContext env name v (pre ++ [last] ++ [.str k]) = fileContext env name v (pre ++ [last]) := by
      by_cases he : ∃ u, Elem env (.map sp l) (.str k) u
      · obtain ⟨u, hu⟩ := he
        obtain ⟨s, rfl⟩ := hk k rfl u hu
        exact h2 _ s hu []
      · push Not at he
        exact h1 _ [] he
    simp only [referenceError, hctx, h0]
    simp

/-- **C99 (keywords of references).** If the keyword that the error is about has a mapping of its own, the context is that
mapping. -/
theorem C99_reference_keyword (env : Env) (name : String) (v : Val) (ht : Tidy env v) (path : List PKey) (k : String)
    (sp : Span) (l : List (DKey × Val)) (h : Leads env v (path ++ [.str k]) (.map sp l)) (reference : String) :
    (referenceError env name v path reference (some k)).2 =
      ⟨name, (sp.start.1 + 1, sp.start.2), (sp.stop.1 + 1, sp.stop.2)⟩ :=
  (C99_mapping env name v ht _ sp l h).1

/-! ### Examples -/

def sp (a b : ℕ) : Span := ⟨"main.yml", (a, 0), (b, 0)⟩

def exEnv : Env where
  upper := fun s => if s = "installations" then "INSTALLATIONS" else if s = "name" then "NAME" else s
  parse := fun k => match k with | .date d => some d | _ => none

/-- ```
INSTALLATIONS:        # 0
  - NAME: a           # 1
    CATEGORY: FIXED   # 2
  - NAME: b           # 3
    FUEL:             # 4
      2020: x         # 5
``` -/
def exFile : Val :=
  .map (sp 0 6) [(.str "INSTALLATIONS", .seq (sp 1 6) [
    .map ⟨"main.yml", (1, 4), (3, 2)⟩ [(.str "NAME", .scalar (sp 1 1)), (.str "CATEGORY", .scalar (sp 2 2))],
    .map ⟨"main.yml", (3, 4), (6, 0)⟩ [(.str "NAME", .scalar (sp 3 3)),
      (.str "FUEL", .map ⟨"main.yml", (5, 6), (6, 0)⟩ [(.date 2020, .scalar (sp 5 5))])]])]

theorem tidy_scalar (s : Span) : Tidy env (.scalar s) := by
  intro sp l h
  cases h

theorem tidy_seq (s : Span) (l : List Val) (h : ∀ w ∈ l, Tidy env w) : Tidy env (.seq s l) := by
  intro sp l' hi
  cases hi with
  | seq hm hi => exact h _ hm sp l' hi

theorem tidy_map (s : Span) (l : List (DKey × Val)) (hn : (l.map (·.1)).Nodup)
    (hd : (∀ x ∈ l, env.parse x.1 = none) ∨
      ((∀ x ∈ l, ∃ d, env.parse x.1 = some d) ∧ (l.map fun x => env.parse x.1).Nodup))
    (h : ∀ x ∈ l, Tidy env x.2) : Tidy env (.map s l) := by
  intro sp l' hi
  cases hi with
  | self => exact ⟨hn, hd⟩
  | map hm hi => exact h _ hm sp l' hi

/-- The example is tidy, so that the theorems apply to it. -/
theorem exFile_tidy : Tidy exEnv exFile := by
  refine tidy_map _ _ (by decide) (.inl (by simp [exEnv])) ?_
  simp only [List.mem_singleton, forall_eq]
  refine tidy_seq _ _ ?_
  simp only [List.mem_cons, List.not_mem_nil, or_false, forall_eq_or_imp, forall_eq]
  constructor
  · refine tidy_map _ _ (by decide) (.inl (by simp [exEnv])) ?_
    simp [tidy_scalar]
  · refine tidy_map _ _ (by decide) (.inl (by simp [exEnv])) ?_
    simp only [List.mem_cons, List.not_mem_nil, or_false, forall_eq_or_imp, forall_eq]
    exact ⟨tidy_scalar _, tidy_map _ _ (by decide) (.inr ⟨by simp [exEnv], by decide⟩) (by simp [tidy_scalar])⟩

example : fileContext exEnv "main.yml" exFile [.str "installations", .idx 1, .str "name"] =
    ⟨"main.yml", (4, 4), (7, 0)⟩ := by decide +kernel

example : fileContext exEnv "main.yml" exFile [.str "installations", .idx 1, .str "FUEL", .date 2020] =
    ⟨"main.yml", (6, 6), (7, 0)⟩ := by decide +kernel

example : fileContext exEnv "main.yml" exFile [.str "installations", .idx 2, .str "name"] =
    ⟨"main.yml", (1, 0), (7, 0)⟩ := by decide +kernel

example : yamlPath [.str "INSTALLATIONS", .idx 0, .str "FUEL", .str "single"] = [.str "INSTALLATIONS", .idx 0, .str "FUEL"] := by
  decide +kernel

example : dotSeparated [.str "A".toList, .idx 12, .str "B".toList, .date 2020 1 9] = "A[12].B.2020-01-09".toList := by
  decide +kernel

example : locationKeys [([.str "installations", .idx 1], "b")] [] [.str "installations", .idx 1, .str "fuel"] =
    [.key (.str "installations"), .name "b", .key (.str "fuel")] := by decide +kernel

example : referenceError exEnv "main.yml" exFile [.str "INSTALLATIONS", .idx 1] "b" (some "NAME") =
    ([.key (.str "INSTALLATIONS"), .name "b", .key (.str "NAME")], ⟨"main.yml", (4, 4), (7, 0)⟩) := by decide +kernel

/-- The fuel of the second component is a mapping. -/
example : (referenceError exEnv "main.yml" exFile [.str "INSTALLATIONS", .idx 1] "b" (some "FUEL")).2 =
    ⟨"main.yml", (6, 6), (7, 0)⟩ := by decide +kernel

example : Shown (fun s => if s = "2020-01-09" then some (2020, 1, 9) else none) (.str "2020-01-09")
    (some (.date 2020 1 9)) := .date rfl

end Verif.C99
