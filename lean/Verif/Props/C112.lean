import Verif.Model.Schema

/-!
C112: resolving the definitions of a model replaces the names of definitions, and nothing else.

A path leads from a model through fields, items of lists and values of dicts to a value (`Leads`); it remembers the
annotation of the last field and the steps taken since. At some places an annotation lets a name stand for a definition
(`Slot`: a union with `DefinitionReference` among its members).
-/

set_option linter.unusedSectionVars false

namespace Verif.C112

open Verif.Schema

/-! ### Specification -/

/-- A step into a list, or to a value of a dict. -/
inductive Step where
  | elem
  | value
  deriving DecidableEq

/-- A step of a path. -/
inductive Key where
  | field (i : Nat)
  | elem (i : Nat)
  | value (i : Nat)
  deriving DecidableEq

/-- At this place the annotation lets a name stand for a definition. -/
inductive Slot : Ann → List Step → Prop where
  | here {as} : Ann.ref ∈ as → Slot (.union as) []
  | union {as a p} : a ∈ as → Slot a p → Slot (.union as) p
  | list {a p} : Slot a p → Slot (.list a) (.elem :: p)
  | dict {a b p} : Slot b p → Slot (.dict a b) (.value :: p)
  | annotated {a p} : Slot a p → Slot (.annotated a) p

/-- There is a place in the annotation that is reached by these steps. -/
inductive Through : Ann → List Step → Prop where
  | nil {a} : Through a []
  | union {as a p} : a ∈ as → Through a p → Through (.union as) p
  | list {a p} : Through a p → Through (.list a) (.elem :: p)
  | dict {a b p} : Through b p → Through (.dict a b) (.value :: p)
  | annotated {a p} : Through a p → Through (.annotated a) p

/-- The annotations the resolver is made for: lists and dicts of values, where the values are of a type without names,
or of a union with the names as a member. -/
inductive Direct : Ann → Prop where
  | none {a} : (∀ p, ¬ Slot a p) → Direct a
  | here {as} : (∀ a ∈ as, ∀ p, ¬ Slot a p) → Direct (.union as)
  | list {a} : Direct a → Direct (.list a)
  | dict {k a} : Direct a → Direct (.dict k a)

/-- Where a path leads, with the annotation of the last field and the steps since. -/
inductive Leads (m : Val) : List Key → Option (Ann × List Step) → Val → Prop where
  | start : Leads m [] none m
  | field {p x c ds vs i d v} : Leads m p x (.obj c ds vs) → ds[i]? = some d → vs[i]? = some v →
      Leads m (p ++ [.field i]) (some (d.ann, [])) v
  | elem {p a q l i v} : Leads m p (some (a, q)) (.list l) → l[i]? = some v →
      Leads m (p ++ [.elem i]) (some (a, q ++ [.elem])) v
  | value {p a q ks l i v} : Leads m p (some (a, q)) (.dict ks l) → l[i]? = some v →
      Leads m (p ++ [.value i]) (some (a, q ++ [.value])) v

/-- What is at a path of a value. -/
def look : Val → List Key → Option Val
  | v, [] => some v
  | .obj _ _ vs, .field i :: p => (vs[i]?).bind (look · p)
  | .list l, .elem i :: p => (l[i]?).bind (look · p)
  | .dict _ l, .value i :: p => (l[i]?).bind (look · p)
  | _, _ => none

/-- Two values look the same from outside: the same leaf, or the same class, length and keys. -/
def Same : Val → Val → Prop
  | .obj c ds vs, .obj c' ds' vs' => c = c' ∧ ds = ds' ∧ vs.length = vs'.length
  | .list l, .list l' => l.length = l'.length
  | .dict ks l, .dict ks' l' => ks = ks' ∧ l.length = l'.length
  | .scalar s, .scalar s' => s = s'
  | .other n, .other n' => n = n'
  | .none, .none => True
  | _, _ => False

/-- A name that stands for a definition is at the path. -/
def Named (m : Val) (p : List Key) (s : String) : Prop :=
  ∃ a q, Leads m p (some (a, q)) (.scalar (.str s)) ∧ Slot a q

/-- The model is of such classes (as many values as fields), and lists and dicts are where the annotations have
them. -/
structure Proper (m : Val) : Prop where
  model : ∃ c ds vs, m = .obj c ds vs
  direct : ∀ p x c ds vs, Leads m p x (.obj c ds vs) → (∀ d ∈ ds, Direct d.ann) ∧ ds.length = vs.length
  fits : ∀ p a q v, Leads m p (some (a, q)) v → Through a q

/-! ### Lemmas -/

section

variable (defs : Defs)

/-- The annotation the resolver uses after some steps. -/
def down : Ann → List Step → Ann
  | a, [] => a
  | a, _ :: q => down a.itemType q

theorem down_snoc (a : Ann) (q : List Step) (s : Step) : down a (q ++ [s]) = (down a q).itemType := by
  induction q generalizing a with
  | nil => rfl
  | cons t q ih => exact ih _

theorem isRefUnion_iff (a : Ann) : a.isRefUnion = true ↔ ∃ as, a = .union as ∧ Ann.ref ∈ as := by
  cases a with
  | union as =>
    simp only [Ann.isRefUnion, List.any_eq_true, Ann.union.injEq, exists_eq_left']
    constructor
    · rintro ⟨x, hx, h⟩
      cases x <;> simp at h
      exact hx
    · intro h; exact ⟨_, h, rfl⟩
  | _ => simp [Ann.isRefUnion]

theorem item_noslot {a : Ann} (h : ∀ p, ¬ Slot a p) : ∀ p, ¬ Slot a.itemType p := by
  intro p hp
  cases a with
  | plain => cases hp
  | nothing => cases hp
  | expr => cases hp
  | ref => cases hp
  | model => cases hp
  | union as =>
    cases as with
    | nil => cases hp
    | cons b bs => exact h p (.union List.mem_cons_self hp)
  | list b => exact h _ (.list hp)
  | dict k b => exact h _ (.dict hp)
  | annotated b => exact h _ (.annotated hp)

theorem down_noslot {a : Ann} (h : ∀ p, ¬ Slot a p) (q : List Step) : ∀ p, ¬ Slot (down a q) p := by
  induction q generalizing a with
  | nil => exact h
  | cons s q ih => exact ih (item_noslot h)

theorem noslot_ref {a : Ann} (h : ∀ p, ¬ Slot a p) : a.isRefUnion = false := by
  cases hr : a.isRefUnion with
  | false => rfl
  | true =>
    obtain ⟨as, rfl, hm⟩ := (isRefUnion_iff a).1 hr
    exact absurd (.here hm) (h [])

/-- For such annotations the resolver sees the places of names. -/
theorem sees {a : Ann} (ha : Direct a) (q : List Step) (ht : Through a q) :
    (down a q).isRefUnion = true ↔ Slot a q := by
  induction ha generalizing q with
  | none h =>
    rw [noslot_ref (down_noslot h q)]
    simp [h q]
  | @here as h =>
    cases q with
    | nil =>
      rw [down, isRefUnion_iff]
      constructor
      · rintro ⟨bs, hb, hm⟩; injection hb with hb; subst hb; exact .here hm
      · intro hs
        cases hs with
        | here hm => exact ⟨_, rfl, hm⟩
        | union hb hs => exact absurd hs (h _ hb _)
    | cons s q =>
      have h1 : ∀ p, ¬ Slot (down (.union as) (s :: q)) p := by
        rw [down]
        apply down_noslot
        cases as with
        | nil => intro p hp; cases hp
        | cons b bs => exact h b List.mem_cons_self
      rw [noslot_ref h1]
      constructor
      · intro h; cases h
      · intro hs
        cases hs with
        | union hb hs => exact absurd hs (h _ hb _)
  | @list a _ ih =>
    cases q with
    | nil =>
      rw [down]
      constructor
      · intro h; cases h
      · intro h; cases h
    | cons s q =>
      cases ht with
      | list ht =>
        rw [down, Ann.itemType, ih q ht]
        constructor
        · exact .list
        · intro h; cases h with | list h => exact h
  | @dict k a _ ih =>
    cases q with
    | nil =>
      rw [down]
      constructor
      · intro h; cases h
      · intro h; cases h
    | cons s q =>
      cases ht with
      | dict ht =>
        rw [down, Ann.itemType, ih q ht]
        constructor
        · exact .dict
        · intro h; cases h with | dict h => exact h

theorem map_ok {α β : Type} {f : α → β} {x : Except Err α} {y : β} :
    x.map f = .ok y ↔ ∃ a, x = .ok a ∧ y = f a := by
  cases x with
  | error e => simp [Except.map]
  | ok a =>
    simp only [Except.map, Except.ok.injEq, exists_eq_left']
    exact eq_comm

theorem map_error {α β : Type} {f : α → β} {x : Except Err α} {e : Err} :
    x.map f = .error e ↔ x = .error e := by
  cases x <;> simp [Except.map]

theorem all_ok (a : Ann) (l l' : List Val) :
    resolveAll defs a l = .ok l' ↔ List.Forall₂ (fun v w => resolveValue defs a v = .ok w) l l' := by
  induction l generalizing l' with
  | nil =>
    rw [resolveAll]
    constructor
    · intro h; cases Except.ok.inj h; exact .nil
    · intro h; cases h; rfl
  | cons v vs ih =>
    rw [resolveAll]
    cases hv : resolveValue defs a v with
    | error e =>
      simp only [reduceCtorEq, false_iff]
      intro h; cases h with | cons h _ => rw [hv] at h; cases h
    | ok w =>
      cases hs : resolveAll defs a vs with
      | error e =>
        simp only [reduceCtorEq, false_iff]
        intro h; cases h with | cons _ h => rw [(ih _).2 h] at hs; cases hs
      | ok ws =>
        simp only [Except.ok.injEq]
        constructor
        · rintro rfl; exact .cons hv ((ih _).1 hs)
        · intro h
          cases h with
          | cons h1 h2 =>
            rw [hv] at h1
            rw [(ih _).2 h2] at hs
            rw [Except.ok.inj h1, Except.ok.inj hs]

theorem all_error (a : Ann) (l : List Val) (e : Err) (h : resolveAll defs a l = .error e) :
    ∃ (i : Nat) (v : Val), l[i]? = some v ∧ resolveValue defs a v = .error e := by
  induction l with
  | nil => cases h
  | cons v vs ih =>
    rw [resolveAll] at h
    cases hv : resolveValue defs a v with
    | error e' =>
      rw [hv] at h
      cases Except.error.inj h
      exact ⟨0, v, rfl, hv⟩
    | ok w =>
      rw [hv] at h
      cases hs : resolveAll defs a vs with
      | error e' =>
        rw [hs] at h
        cases Except.error.inj h
        obtain ⟨i, v', hi, h'⟩ := ih hs
        exact ⟨i + 1, v', hi, h'⟩
      | ok ws => rw [hs] at h; cases h

theorem fields_ok (ds : List Decl) (vs ws : List Val) (hl : ds.length = vs.length)
    (h : resolveFields defs ds vs = .ok ws) :
    vs.length = ws.length ∧ ∀ (i : Nat) d v, ds[i]? = some d → vs[i]? = some v →
      ∃ w, ws[i]? = some w ∧ resolveValue defs d.ann v = .ok w := by
  induction ds generalizing vs ws with
  | nil =>
    cases vs with
    | nil =>
      rw [resolveFields] at h
      · cases Except.ok.inj h; exact ⟨rfl, by simp⟩
      · intros; simp_all
    | cons => simp at hl
  | cons d ds ih =>
    cases vs with
    | nil => simp at hl
    | cons v vs =>
      rw [resolveFields] at h
      cases hv : resolveValue defs d.ann v with
      | error e => rw [hv] at h; cases h
      | ok w =>
        rw [hv] at h
        cases hs : resolveFields defs ds vs with
        | error e => rw [hs] at h; cases h
        | ok ws' =>
          rw [hs] at h
          cases Except.ok.inj h
          obtain ⟨h1, h2⟩ := ih vs ws' (by simpa using hl) hs
          refine ⟨by simp [h1], ?_⟩
          intro i d' v' hd hv'
          cases i with
          | zero =>
            simp only [List.getElem?_cons_zero, Option.some.injEq] at hd hv'
            subst hd hv'
            exact ⟨w, rfl, hv⟩
          | succ i => exact h2 i d' v' (by simpa using hd) (by simpa using hv')

theorem fields_error (ds : List Decl) (vs : List Val) (e : Err) (h : resolveFields defs ds vs = .error e) :
    ∃ (i : Nat) (d : Decl) (v : Val), ds[i]? = some d ∧ vs[i]? = some v ∧ resolveValue defs d.ann v = .error e := by
  induction ds generalizing vs with
  | nil =>
    rw [resolveFields] at h
    · cases h
    · intros; simp_all
  | cons d ds ih =>
    cases vs with
    | nil =>
      rw [resolveFields] at h
      · cases h
      · intros; simp_all
    | cons v vs =>
      rw [resolveFields] at h
      cases hv : resolveValue defs d.ann v with
      | error e' =>
        rw [hv] at h
        cases Except.error.inj h
        exact ⟨0, d, v, rfl, rfl, hv⟩
      | ok w =>
        rw [hv] at h
        cases hs : resolveFields defs ds vs with
        | error e' =>
          rw [hs] at h
          cases Except.error.inj h
          obtain ⟨i, d', v', h1, h2, h3⟩ := ih vs hs
          exact ⟨i + 1, d', v', h1, h2, h3⟩
        | ok ws => rw [hs] at h; cases h

theorem look_snoc (v : Val) (p : List Key) (k : Key) : look v (p ++ [k]) = (look v p).bind (look · [k]) := by
  induction p generalizing v with
  | nil => simp [look]
  | cons j p ih =>
    rw [List.cons_append]
    cases v <;> cases j <;> simp only [look, Option.bind_none]
    all_goals
      rename_i l i
      cases l[i]? with
      | none => rfl
      | some x => exact ih x

theorem forall₂_get {α β : Type} {R : α → β → Prop} {l : List α} {l' : List β} (h : List.Forall₂ R l l') :
    l.length = l'.length ∧ ∀ (i : Nat) a, l[i]? = some a → ∃ b, l'[i]? = some b ∧ R a b := by
  induction h with
  | nil => exact ⟨rfl, by simp⟩
  | cons h _ ih =>
    refine ⟨by simp [ih.1], ?_⟩
    intro i a ha
    cases i with
    | zero => simp only [List.getElem?_cons_zero, Option.some.injEq] at ha; subst ha; exact ⟨_, rfl, h⟩
    | succ i => simpa using ih.2 i a (by simpa using ha)

/-- What has become of the value at a path. -/
theorem follows {m m' : Val} (hm : ∃ c ds vs, m = .obj c ds vs)
    (hl : ∀ p x c ds vs, Leads m p x (.obj c ds vs) → ds.length = vs.length) (h : resolve defs m = .ok m')
    {p : List Key} {x : Option (Ann × List Step)} {v : Val} (hp : Leads m p x v) :
    ∃ w, look m' p = some w ∧
      match x with
      | none => resolve defs v = .ok w ∧ ∃ c ds vs, v = .obj c ds vs
      | some (a, q) => resolveValue defs (down a q) v = .ok w := by
  induction hp with
  | start => exact ⟨m', by cases m' <;> rfl, h, hm⟩
  | @field p x c ds vs i d v hp hd hv ih =>
    obtain ⟨w, hw, hx⟩ := ih
    have hr : (resolveFields defs ds vs).map (.obj c ds) = .ok w := by
      cases x with
      | none => exact hx.1
      | some y => simpa [resolveValue] using hx
    obtain ⟨ws, h1, rfl⟩ := map_ok.1 hr
    obtain ⟨w', h2, h3⟩ := (fields_ok defs ds vs ws (hl _ _ _ _ _ hp) h1).2 i d v hd hv
    refine ⟨w', ?_, h3⟩
    rw [look_snoc, hw]
    simp only [Option.bind_some, look, h2]
  | @elem p a q l i v hp hv ih =>
    obtain ⟨w, hw, hx⟩ := ih
    simp only [resolveValue] at hx
    obtain ⟨ws, h1, rfl⟩ := map_ok.1 hx
    obtain ⟨w', h2, h3⟩ := (forall₂_get ((all_ok defs _ _ _).1 h1)).2 i v hv
    refine ⟨w', ?_, ?_⟩
    · rw [look_snoc, hw]
      simp only [Option.bind_some, look, h2]
    · simpa [down_snoc] using h3
  | @value p a q ks l i v hp hv ih =>
    obtain ⟨w, hw, hx⟩ := ih
    simp only [resolveValue] at hx
    obtain ⟨ws, h1, rfl⟩ := map_ok.1 hx
    obtain ⟨w', h2, h3⟩ := (forall₂_get ((all_ok defs _ _ _).1 h1)).2 i v hv
    refine ⟨w', ?_, ?_⟩
    · rw [look_snoc, hw]
      simp only [Option.bind_some, look, h2]
    · simpa [down_snoc] using h3

/-- A path with an annotation goes through a field of an object of the model. -/
theorem leads_direct {m : Val} (hm : Proper m) {p : List Key} {a : Ann} {q : List Step} {v : Val}
    (hp : Leads m p (some (a, q)) v) : Direct a := by
  generalize hx : some (a, q) = x at hp
  induction hp generalizing a q with
  | start => cases hx
  | field hp hd _ _ =>
    cases hx
    exact (hm.direct _ _ _ _ _ hp).1 _ (List.mem_of_getElem? hd)
  | elem _ _ ih => cases hx; exact ih rfl
  | value _ _ ih => cases hx; exact ih rfl

/-- Failure has its cause at a path. -/
theorem fails {m : Val} {e : Err} : ∀ (n : Nat) (v : Val), sizeOf v ≤ n → ∀ (p : List Key) (a : Ann) (q : List Step),
    Leads m p (some (a, q)) v → resolveValue defs (down a q) v = .error e →
    ∃ p' a' q' s, Leads m p' (some (a', q')) (.scalar (.str s)) ∧ (down a' q').isRefUnion = true ∧
      List.lookup s defs = none ∧ e = .key s := by
  intro n
  induction n with
  | zero => intro v hn; cases v <;> simp at hn
  | succ n ih =>
    intro v hn p a q hp h
    cases v with
    | none => simp [resolveValue] at h
    | other => simp [resolveValue] at h
    | scalar s =>
      cases s with
      | num => simp [resolveValue] at h
      | str s =>
        rw [resolveValue] at h
        split at h
        · rename_i hr
          unfold lookup at h
          cases hl : List.lookup s defs with
          | none => rw [hl] at h; exact ⟨p, a, q, s, hp, hr, hl, (Except.error.inj h).symm⟩
          | some w => rw [hl] at h; cases h
        · cases h
    | list l =>
      rw [resolveValue, map_error] at h
      obtain ⟨i, w, hi, hw⟩ := all_error defs _ _ _ h
      have := List.sizeOf_lt_of_mem (List.mem_of_getElem? hi)
      simp only [Val.list.sizeOf_spec] at hn
      exact ih w (by omega) _ _ _ (.elem hp hi) (by rw [down_snoc]; exact hw)
    | dict ks l =>
      rw [resolveValue, map_error] at h
      obtain ⟨i, w, hi, hw⟩ := all_error defs _ _ _ h
      have := List.sizeOf_lt_of_mem (List.mem_of_getElem? hi)
      simp only [Val.dict.sizeOf_spec] at hn
      exact ih w (by omega) _ _ _ (.value hp hi) (by rw [down_snoc]; exact hw)
    | obj c ds vs =>
      rw [resolveValue, map_error] at h
      obtain ⟨i, d, w, hd, hi, hw⟩ := fields_error defs _ _ _ h
      have := List.sizeOf_lt_of_mem (List.mem_of_getElem? hi)
      simp only [Val.obj.sizeOf_spec] at hn
      exact ih w (by omega) _ _ _ (.field hp hd hi) hw

theorem again_fields (ds : List Decl) (vs ws : List Val)
    (hv : ∀ v ∈ vs, ∀ a w, resolveValue defs a v = .ok w → resolveValue defs a w = .ok w)
    (h : resolveFields defs ds vs = .ok ws) : resolveFields defs ds ws = .ok ws := by
  induction ds generalizing vs ws with
  | nil => rw [resolveFields]; intros; simp_all
  | cons d ds ih =>
    cases vs with
    | nil =>
      rw [resolveFields] at h
      · cases Except.ok.inj h
        rw [resolveFields]
        intros; simp_all
      · intros; simp_all
    | cons v vs =>
      rw [resolveFields] at h
      cases hr : resolveValue defs d.ann v with
      | error e => rw [hr] at h; cases h
      | ok w =>
        rw [hr] at h
        cases hs : resolveFields defs ds vs with
        | error e => rw [hs] at h; cases h
        | ok ws' =>
          rw [hs] at h
          cases Except.ok.inj h
          rw [resolveFields, hv v List.mem_cons_self _ _ hr,
            ih vs ws' (fun x hx => hv x (List.mem_cons_of_mem _ hx)) hs]

/-- `TARGET` of a unit of a pipeline (yaml_process_pipeline.py:19). -/
def slot : Decl := ⟨"target", false, .union [.model, .ref]⟩

/-- A unit with a name is such a model. -/
theorem one_proper (s : String) : Proper (.obj "M" [slot] [.scalar (.str s)]) := by
  have hleads : ∀ p x v, Leads (.obj "M" [slot] [.scalar (.str s)]) p x v →
      (x = none ∧ v = .obj "M" [slot] [.scalar (.str s)]) ∨
      (x = some (slot.ann, []) ∧ v = .scalar (.str s)) := by
    intro p x v h
    induction h with
    | start => exact Or.inl ⟨rfl, rfl⟩
    | @field p x c ds vs i d v _ hd hv ih =>
      rcases ih with ⟨_, h⟩ | ⟨_, h⟩
      · injection h with _ h1 h2
        subst h1 h2
        cases i with
        | zero =>
          simp only [List.getElem?_cons_zero, Option.some.injEq] at hd hv
          exact Or.inr ⟨by rw [← hd], hv.symm⟩
        | succ i => simp at hd
      · cases h
    | elem _ _ ih => rcases ih with ⟨h, _⟩ | ⟨_, h⟩ <;> cases h
    | value _ _ ih => rcases ih with ⟨h, _⟩ | ⟨_, h⟩ <;> cases h
  refine ⟨⟨_, _, _, rfl⟩, ?_, ?_⟩
  · intro p x c ds vs h
    rcases hleads _ _ _ h with ⟨_, h⟩ | ⟨_, h⟩
    · injection h with _ h1 h2
      subst h1 h2
      refine ⟨?_, rfl⟩
      intro d hd
      rw [List.mem_singleton] at hd
      subst hd
      refine .here ?_
      intro a ha p hs
      simp only [List.mem_cons, List.not_mem_nil, or_false] at ha
      rcases ha with rfl | rfl <;> cases hs
    · cases h
  · intro p a q v h
    rcases hleads _ _ _ h with ⟨h, _⟩ | ⟨h, _⟩
    · cases h
    · cases h; exact .nil

end

/-! ### Theorems -/

/-- In the resolved model the definition stands where its name stood, and everything else is as it was: same leaves,
same classes, as many items, same keys. -/
theorem C112_resolved (defs : Defs) (m m' : Val) (hm : Proper m) (h : resolve defs m = .ok m') :
    (∀ p s, Named m p s → ∃ v, List.lookup s defs = some v ∧ look m' p = some v) ∧
    (∀ p x v, Leads m p x v → (∀ s, v = .scalar (.str s) → ¬ Named m p s) →
      ∃ w, look m' p = some w ∧ Same v w) := by
  have hlen : ∀ p x c ds vs, Leads m p x (.obj c ds vs) → ds.length = vs.length :=
    fun p x c ds vs hp => (hm.direct p x c ds vs hp).2
  constructor
  · rintro p s ⟨a, q, hp, hs⟩
    obtain ⟨w, hw, hx⟩ := follows defs hm.model hlen h hp
    have hr := (sees (leads_direct hm hp) q (hm.fits _ _ _ _ hp)).2 hs
    simp only [resolveValue, if_pos hr] at hx
    unfold lookup at hx
    cases hl : List.lookup s defs with
    | none => rw [hl] at hx; cases hx
    | some v => rw [hl] at hx; cases Except.ok.inj hx; exact ⟨_, rfl, hw⟩
  · intro p x v hp hv
    obtain ⟨w, hw, hx⟩ := follows defs hm.model hlen h hp
    refine ⟨w, hw, ?_⟩
    cases x with
    | none =>
      obtain ⟨hx, c, ds, vs, rfl⟩ := hx
      obtain ⟨ws, h1, rfl⟩ := map_ok.1 hx
      exact ⟨rfl, rfl, (fields_ok defs ds vs ws (hlen _ _ _ _ _ hp) h1).1⟩
    | some y =>
      obtain ⟨a, q⟩ := y
      replace hx : resolveValue defs (down a q) v = .ok w := hx
      cases v with
      | none => simp only [resolveValue] at hx; cases Except.ok.inj hx; trivial
      | other => simp only [resolveValue] at hx; cases Except.ok.inj hx; rfl
      | scalar s =>
        cases s with
        | num => simp only [resolveValue] at hx; cases Except.ok.inj hx; rfl
        | str s =>
          have hr : ¬ (down a q).isRefUnion = true := fun hr =>
            hv s rfl ⟨a, q, hp, (sees (leads_direct hm hp) q (hm.fits _ _ _ _ hp)).1 hr⟩
          rw [resolveValue, if_neg hr] at hx
          cases Except.ok.inj hx
          rfl
      | list l =>
        rw [resolveValue] at hx
        obtain ⟨ws, h1, rfl⟩ := map_ok.1 hx
        exact (forall₂_get ((all_ok defs _ _ _).1 h1)).1
      | dict ks l =>
        rw [resolveValue] at hx
        obtain ⟨ws, h1, rfl⟩ := map_ok.1 hx
        exact ⟨rfl, (forall₂_get ((all_ok defs _ _ _).1 h1)).1⟩
      | obj c ds vs =>
        rw [resolveValue] at hx
        obtain ⟨ws, h1, rfl⟩ := map_ok.1 hx
        exact ⟨rfl, rfl, (fields_ok defs ds vs ws (hlen _ _ _ _ _ hp) h1).1⟩

/-- Resolving fails exactly when a name in the model has no definition; the error names such a name. -/
theorem C112_missing (defs : Defs) (m : Val) (hm : Proper m) :
    ((∃ e, resolve defs m = .error e) ↔ ∃ p s, Named m p s ∧ List.lookup s defs = none) ∧
    ∀ e, resolve defs m = .error e → ∃ p s, e = .key s ∧ Named m p s ∧ List.lookup s defs = none := by
  have hback : ∀ e, resolve defs m = .error e → ∃ p s, e = .key s ∧ Named m p s ∧ List.lookup s defs = none := by
    intro e he
    obtain ⟨c, ds, vs, rfl⟩ := hm.model
    rw [resolve, map_error] at he
    obtain ⟨i, d, w, hd, hi, hw⟩ := fields_error defs _ _ _ he
    obtain ⟨p, a, q, s, hp, hr, hl, rfl⟩ := fails defs _ w (Nat.le_refl _) _ _ _ (.field .start hd hi) hw
    exact ⟨p, s, rfl, ⟨a, q, hp, (sees (leads_direct hm hp) q (hm.fits _ _ _ _ hp)).1 hr⟩, hl⟩
  refine ⟨⟨?_, ?_⟩, hback⟩
  · rintro ⟨e, he⟩
    obtain ⟨p, s, _, h1, h2⟩ := hback e he
    exact ⟨p, s, h1, h2⟩
  · rintro ⟨p, s, hn, hl⟩
    cases hr : resolve defs m with
    | error e => exact ⟨e, rfl⟩
    | ok m' =>
      obtain ⟨v, hv, _⟩ := (C112_resolved defs m m' hm hr).1 p s hn
      rw [hl] at hv
      cases hv

/-- Resolving again changes nothing, when the definitions are models without unresolved names. -/
theorem C112_again (defs : Defs) (m m' : Val)
    (hd : ∀ s d, List.lookup s defs = some d → (∃ c ds vs, d = .obj c ds vs) ∧ resolve defs d = .ok d)
    (h : resolve defs m = .ok m') : resolve defs m' = .ok m' := by
  have hvals : ∀ (n : Nat) (v : Val), sizeOf v ≤ n → ∀ a w, resolveValue defs a v = .ok w →
      resolveValue defs a w = .ok w := by
    intro n
    induction n with
    | zero => intro v hn; cases v <;> simp at hn
    | succ n ih =>
      have hall : ∀ l : List Val, (∀ x ∈ l, sizeOf x ≤ n) → ∀ a l', resolveAll defs a l = .ok l' →
          resolveAll defs a l' = .ok l' := by
        intro l hl a l' h
        rw [all_ok] at h ⊢
        induction h with
        | nil => exact .nil
        | cons h _ ih' =>
          exact .cons (ih _ (hl _ List.mem_cons_self) a _ h) (ih' fun x hx => hl x (List.mem_cons_of_mem _ hx))
      intro v hn a w h
      cases v with
      | none => simp only [resolveValue] at h; cases Except.ok.inj h; simp only [resolveValue]
      | other => simp only [resolveValue] at h; cases Except.ok.inj h; simp only [resolveValue]
      | scalar s =>
        cases s with
        | num => simp only [resolveValue] at h; cases Except.ok.inj h; simp only [resolveValue]
        | str s =>
          rw [resolveValue] at h
          split at h
          · rename_i hr
            unfold lookup at h
            cases hl : List.lookup s defs with
            | none => rw [hl] at h; cases h
            | some d =>
              rw [hl] at h
              cases Except.ok.inj h
              obtain ⟨⟨c, ds, vs, rfl⟩, hf⟩ := hd s _ hl
              rw [resolveValue]
              exact hf
          · rename_i hr
            cases Except.ok.inj h
            rw [resolveValue, if_neg hr]
      | list l =>
        rw [resolveValue] at h
        obtain ⟨ws, h1, rfl⟩ := map_ok.1 h
        rw [resolveValue, hall l ?_ _ _ h1]
        · rfl
        · intro x hx
          have := List.sizeOf_lt_of_mem hx
          simp only [Val.list.sizeOf_spec] at hn
          omega
      | dict ks l =>
        rw [resolveValue] at h
        obtain ⟨ws, h1, rfl⟩ := map_ok.1 h
        rw [resolveValue, hall l ?_ _ _ h1]
        · rfl
        · intro x hx
          have := List.sizeOf_lt_of_mem hx
          simp only [Val.dict.sizeOf_spec] at hn
          omega
      | obj c ds vs =>
        rw [resolveValue] at h
        obtain ⟨ws, h1, rfl⟩ := map_ok.1 h
        rw [resolveValue, again_fields defs ds vs ws ?_ h1]
        · rfl
        · intro x hx a w hw
          have := List.sizeOf_lt_of_mem hx
          simp only [Val.obj.sizeOf_spec] at hn
          exact ih x (by omega) a w hw
  cases m with
  | obj c ds vs =>
    rw [resolve] at h
    obtain ⟨ws, h1, rfl⟩ := map_ok.1 h
    rw [resolve, again_fields defs ds vs ws (fun x _ => hvals _ x (Nat.le_refl _)) h1]
    rfl
  | _ => simp only [resolve] at h; cases Except.ok.inj h; simp only [resolve]

/-- FINDING. A name in an optional list (`list[T | DefinitionReference] | None`) is left as it is. -/
theorem C112_optional : ∃ (ds : List Decl) (vs : List Val) (p : List Key) (s : String),
    Named (.obj "M" ds vs) p s ∧ ∀ defs, resolve defs (.obj "M" ds vs) = .ok (.obj "M" ds vs) := by
  refine ⟨[⟨"f", false, .union [.list (.union [.model, .ref]), .nothing]⟩], [.list [.scalar (.str "x")]],
    [.field 0, .elem 0], "x", ⟨.union [.list (.union [.model, .ref]), .nothing], [.elem], ?_, ?_⟩, fun defs => rfl⟩
  · exact .elem (p := [.field 0]) (q := []) (i := 0) (l := [.scalar (.str "x")])
      (.field (p := []) (i := 0)
        (d := ⟨"f", false, .union [.list (.union [.model, .ref]), .nothing]⟩) .start rfl rfl) rfl
  · exact .union List.mem_cons_self (.list (.here (List.mem_cons_of_mem _ List.mem_cons_self)))

/-- FINDING. A name inside an `Annotated` item (`list[Annotated[T | DefinitionReference, ...]]`) is left as it is. -/
theorem C112_annotated : ∃ (ds : List Decl) (vs : List Val) (p : List Key) (s : String),
    Named (.obj "M" ds vs) p s ∧ ∀ defs, resolve defs (.obj "M" ds vs) = .ok (.obj "M" ds vs) := by
  refine ⟨[⟨"f", false, .list (.annotated (.union [.model, .ref]))⟩], [.list [.scalar (.str "x")]],
    [.field 0, .elem 0], "x", ⟨.list (.annotated (.union [.model, .ref])), [.elem], ?_, ?_⟩, fun defs => rfl⟩
  · exact .elem (p := [.field 0]) (q := []) (i := 0) (l := [.scalar (.str "x")])
      (.field (p := []) (i := 0)
        (d := ⟨"f", false, .list (.annotated (.union [.model, .ref]))⟩) .start rfl rfl) rfl
  · exact .list (.annotated (.here (List.mem_cons_of_mem _ List.mem_cons_self)))

/-- FINDING. The names in a definition are not resolved when the definition is put in: the resolved model still has a
name, and resolving it again changes it. -/
theorem C112_inner : ∃ (defs : Defs) (m m' m'' : Val) (p : List Key) (s : String), Proper m ∧
    resolve defs m = .ok m' ∧ Named m' p s ∧ resolve defs m' = .ok m'' ∧ look m' p ≠ look m'' p := by
  refine ⟨[("a", .obj "N" [slot] [.scalar (.str "b")]), ("b", .obj "E" [] [])],
    .obj "M" [slot] [.scalar (.str "a")], .obj "M" [slot] [.obj "N" [slot] [.scalar (.str "b")]],
    .obj "M" [slot] [.obj "N" [slot] [.obj "E" [] []]], [.field 0, .field 0], "b", one_proper "a", rfl, ?_, rfl, ?_⟩
  · exact ⟨slot.ann, [], .field (.field .start rfl rfl) rfl rfl, .here (List.mem_cons_of_mem _ List.mem_cons_self)⟩
  · intro h; simp [look] at h

/-! ### Examples -/

/-- The definitions of a pipeline. -/
def someDefs : Defs := [("drop", .obj "Dropper" [⟨"p", true, .plain⟩] [.scalar (.str "5")])]

/-- A pipeline with the name of a definition in a list of units, and its own name, which is the same text. -/
def pipe : Val :=
  .obj "Pipeline" [⟨"name", false, .plain⟩, ⟨"units", false, .list .model⟩]
    [.scalar (.str "drop"), .list [.obj "Unit" [slot] [.scalar (.str "drop")], .obj "Unit" [slot] [.obj "R" [] []]]]

example : resolve someDefs pipe = .ok (.obj "Pipeline" [⟨"name", false, .plain⟩, ⟨"units", false, .list .model⟩]
    [.scalar (.str "drop"), .list [.obj "Unit" [slot] [.obj "Dropper" [⟨"p", true, .plain⟩] [.scalar (.str "5")]],
      .obj "Unit" [slot] [.obj "R" [] []]]]) := rfl

example : resolve [] pipe = .error (.key "drop") := rfl

/-- `C112_resolved` at work: for every name. -/
example (defs : Defs) (s : String) (m' : Val) (h : resolve defs (.obj "M" [slot] [.scalar (.str s)]) = .ok m') :
    ∃ v, List.lookup s defs = some v ∧ look m' [.field 0] = some v :=
  (C112_resolved defs _ m' (one_proper s) h).1 [.field 0] s
    ⟨slot.ann, [], .field .start rfl rfl, .here (List.mem_cons_of_mem _ List.mem_cons_self)⟩

end Verif.C112
