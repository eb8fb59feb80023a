import Verif.Props.C20

/-!
# C17: variable definitions resolve independently of their order
-/

namespace Verif.C17
open Verif.Time Verif.Rates Verif.Expression Verif.Variables Verif.C19

/-! ## Specification -/

/-- The expressions of a variable. -/
def exprs (d : Processor) : List Expr :=
  match d.body with
  | .single e => [e]
  | .temporal es => es.map (·.2)

/-- The names a variable refers to. -/
def RefersTo (d : Processor) (r : String) : Prop := ∃ e ∈ exprs d, .ref r ∈ e.tokens

/-- Input as the program receives it: names are unique, given series have one value per period, expressions are
parsed and use supported operators, the dates of a definition are unique, periods are not empty. -/
structure Input (given : Vars) (defs : List Processor) (ps : Periods) : Prop where
  unique : (defs.map (·.id)).Nodup
  fresh : ∀ d ∈ defs, given.lookup d.id = none
  lengths : ∀ s vs, given.lookup s = some vs → vs.length = ps.length
  parsed : ∀ d ∈ defs, ∀ e ∈ exprs d, Expr.make e.tokens = .ok e ∧ Supported e.tokens
  dates : ∀ d ∈ defs, ∀ es, d.body = .temporal es → (es.map (·.1)).Nodup
  periods : ∀ q ∈ ps, q.start < q.stop

/-- References can be ordered: every name used is given, or is a variable of strictly smaller rank. That is, all
names exist and there is no cycle. -/
def Resolvable (given : Vars) (defs : List Processor) : Prop :=
  ∃ rank : String → Nat, ∀ d ∈ defs, ∀ r, RefersTo d r →
    (given.lookup r).isSome ∨ ∃ d' ∈ defs, d'.id = r ∧ rank r < rank d.id

/-- A solution: given values are kept, and every variable has the value its definition yields under the solution
itself. -/
def Solution (pow : Fl → Fl → Fl) (given : Vars) (defs : List Processor) (ps : Periods) (env : Vars) : Prop :=
  (∀ s, (∀ d ∈ defs, d.id ≠ s) → env.lookup s = given.lookup s) ∧
  ∀ d ∈ defs, ∃ v, env.lookup d.id = some v ∧ d.process pow env ps = .ok v

/-! ## Helper lemmas -/

theorem required_iff (d : Processor) (r : String) : r ∈ d.required ↔ RefersTo d r := by
  unfold Processor.required RefersTo exprs
  cases d.body with
  | single e => simp [refs_mem]
  | temporal es =>
    simp only [List.mem_flatMap, refs_mem, List.mem_map]
    constructor
    · rintro ⟨de, h1, h2⟩; exact ⟨de.2, ⟨de, h1, rfl⟩, h2⟩
    · rintro ⟨e, ⟨de, h1, rfl⟩, h2⟩; exact ⟨de, h1, h2⟩

theorem lookup_dictSet (k s : String) (v : List Fl) (env : Vars) :
    (dictSet k v env).lookup s = if s = k then some v else env.lookup s := by
  induction env with
  | nil =>
    simp only [dictSet, List.lookup_cons, List.lookup_nil]
    by_cases h : s = k
    · simp [h]
    · simp [h, beq_eq_false_iff_ne.mpr h]
  | cons kv env ih =>
    obtain ⟨k', v'⟩ := kv
    rw [dictSet]
    split
    · rename_i h; subst h
      simp only [List.lookup_cons]
      by_cases h : s = k'
      · simp [h]
      · simp [h, beq_eq_false_iff_ne.mpr h]
    · rename_i h
      simp only [List.lookup_cons]
      by_cases h2 : s = k'
      · subst h2; simp [h]
      · simp only [beq_eq_false_iff_ne.mpr h2, ih]

theorem tree_congr (pow : Fl → Fl → Fl) (env env' : Vars) (n : Nat) (ts : List Token) (t : Tree)
    (ht : TreeOver (fun x => x ∈ ts ∧ x ≠ .lpar ∧ x ≠ .rpar) t)
    (h : ∀ s, .ref s ∈ ts → env.lookup s = env'.lookup s) :
    t.evaluate pow env n = t.evaluate pow env' n := by
  induction t with
  | leaf a =>
    cases a with
    | ref s => simp only [Tree.evaluate, h s ht.1.1]
    | _ => rfl
  | node a l r ihl ihr => simp only [Tree.evaluate, ihl ht.2.2.1, ihr ht.2.2.2]

theorem expr_congr (pow : Fl → Fl → Fl) (env env' : Vars) (n : Nat) (e : Expr) (hm : Expr.make e.tokens = .ok e)
    (h : ∀ s, .ref s ∈ e.tokens → env.lookup s = env'.lookup s) :
    e.evaluate pow env n = e.evaluate pow env' n := by
  unfold Expr.evaluate
  rw [tree_congr pow env env' n e.tokens e.tree (make_over _ _ hm).2 h]
  have : (refs e.tokens).all (fun r => (env.lookup r).isSome) = (refs e.tokens).all (fun r => (env'.lookup r).isSome) := by
    rw [Bool.eq_iff_iff, List.all_eq_true, List.all_eq_true]
    constructor
    · intro hh s hs; rw [← h s ((refs_mem _ _).mp hs)]; exact hh s hs
    · intro hh s hs; rw [h s ((refs_mem _ _).mp hs)]; exact hh s hs
  rw [this]

theorem mapM_congr {α β : Type} (f g : α → Except Err β) (l : List α) (h : ∀ x ∈ l, f x = g x) :
    l.mapM f = l.mapM g := by
  induction l with
  | nil => rfl
  | cons a l ih =>
    rw [List.mapM_cons, List.mapM_cons, h a (by simp), ih (fun x hx => h x (by simp [hx]))]

theorem process_congr (pow : Fl → Fl → Fl) (env env' : Vars) (ps : Periods) (d : Processor)
    (hm : ∀ e ∈ exprs d, Expr.make e.tokens = .ok e)
    (h : ∀ s ∈ d.required, env.lookup s = env'.lookup s) :
    d.process pow env ps = d.process pow env' ps := by
  have he : ∀ e ∈ exprs d, e.evaluate pow env ps.length = e.evaluate pow env' ps.length := by
    intro e hmem
    exact expr_congr pow env env' ps.length e (hm e hmem)
      (fun s hs => h s ((required_iff d s).mpr ⟨e, hmem, hs⟩))
  unfold Processor.process
  unfold exprs at he
  cases hb : d.body with
  | single e => rw [hb] at he; exact he e (by simp)
  | temporal es =>
    rw [hb] at he
    simp only at he ⊢
    congr 1
    apply mapM_congr
    intro pe hpe
    rw [he pe.2 (List.of_mem_zip hpe).2]

theorem process_ok (pow : Fl → Fl → Fl) (env : Vars) (ps : Periods) (d : Processor)
    (hm : ∀ e ∈ exprs d, Expr.make e.tokens = .ok e ∧ Supported e.tokens)
    (hd : ∀ es, d.body = .temporal es → (es.map (·.1)).Nodup) (hps : ∀ q ∈ ps, q.start < q.stop)
    (h : ∀ s ∈ d.required, ∃ v, env.lookup s = some v ∧ v.length = ps.length) :
    ∃ v, d.process pow env ps = .ok v ∧ v.length = ps.length := by
  have hu : ∀ e ∈ exprs d, C20.Usable env ps.length e := by
    intro e hmem
    exact ⟨(hm e hmem).1, (hm e hmem).2, fun s hs => h s ((required_iff d s).mpr ⟨e, hmem, hs⟩)⟩
  unfold Processor.process
  unfold exprs at hu
  cases hb : d.body with
  | single e =>
    rw [hb] at hu
    obtain ⟨a, b, c⟩ := hu e (by simp)
    obtain ⟨vs, h1, h2, -⟩ := C19_value_per_period pow _ _ env ps.length a b c
    exact ⟨vs, h1, h2⟩
  | temporal es =>
    rw [hb] at hu
    simp only at hu ⊢
    have hnd := hd es hb
    generalize hs : (es.map (·.1)).mergeSort (fun a b => decide (a ≤ b)) = dates
    have hperm : dates.Perm (es.map (·.1)) := by rw [← hs]; exact List.mergeSort_perm _ _
    have hsorted : dates.Pairwise (· < ·) := by
      have h1 : dates.Pairwise (fun a b => decide (a ≤ b) = true) := by
        rw [← hs]
        exact List.pairwise_mergeSort (fun a b c h1 h2 => by simp at *; omega) (fun a b => by simp; omega) _
      have h2 : dates.Nodup := hperm.nodup_iff.mpr hnd
      exact (h1.and h2).imp (fun {a b} h => by simp at h; omega)
    have hlen : dates.length = es.length := by rw [hperm.length_eq]; simp
    have e1 : (dates.zip (es.map (·.2))).map (·.1) = dates := List.map_fst_zip (by simp [hlen])
    have e2 : (dates.zip (es.map (·.2))).map (·.2) = es.map (·.2) := List.map_snd_zip (by simp [hlen])
    have hvp : Periods.createPeriods dates false true = (datesToPeriods (dates.zip (es.map (·.2)))).map (·.1) := by
      rw [← C20.create_dates, e1]
    have hz : (Periods.createPeriods dates false true).zip (es.map (·.2)) = datesToPeriods (dates.zip (es.map (·.2))) := by
      rw [hvp]
      have := C20.zip_dates (dates.zip (es.map (·.2)))
      rwa [e2] at this
    obtain ⟨vs, h1, h2, -⟩ := C20.temporal_values pow env ps hps (datesToPeriods (dates.zip (es.map (·.2))))
      (fun pe hpe => hu _ (List.of_mem_zip (datesToPeriods_mem_start hpe)).2)
      (by rw [List.pairwise_map]; exact datesToPeriods_pairwise (by rw [e1]; exact hsorted))
    refine ⟨vs, ?_, h2⟩
    rw [hz, hvp]
    exact h1

/-- Invariant of the values computed so far. -/
structure Good (pow : Fl → Fl → Fl) (given : Vars) (defs : List Processor) (ps : Periods) (env : Vars) : Prop where
  keep : ∀ s, (∀ d ∈ defs, d.id ≠ s) → env.lookup s = given.lookup s
  len : ∀ s v, env.lookup s = some v → v.length = ps.length
  done : ∀ d ∈ defs, ∀ v, env.lookup d.id = some v →
    (∀ r ∈ d.required, (env.lookup r).isSome) ∧ d.process pow env ps = .ok v
  ranked : ∃ rank : String → Nat, ∀ d ∈ defs, (env.lookup d.id).isSome → ∀ r ∈ d.required,
    (given.lookup r).isSome ∨ ∃ d' ∈ defs, d'.id = r ∧ rank r < rank d.id

theorem le_foldr_max (rank : String → Nat) (l : List String) (r : String) (h : r ∈ l) :
    rank r ≤ l.foldr (fun s m => max (rank s) m) 0 := by
  induction l with
  | nil => simp at h
  | cons a l ih =>
    simp only [List.foldr_cons]
    rcases List.mem_cons.mp h with rfl | h
    · omega
    · have := ih h; omega

theorem good_set {pow : Fl → Fl → Fl} {given : Vars} {defs : List Processor} {ps : Periods} {env : Vars}
    (hin : Input given defs ps) (hg : Good pow given defs ps env) (d : Processor) (hd : d ∈ defs)
    (hnone : env.lookup d.id = none) (hready : ∀ r ∈ d.required, (env.lookup r).isSome) :
    ∃ v, d.process pow env ps = .ok v ∧ Good pow given defs ps (dictSet d.id v env) := by
  obtain ⟨v, hv, hvl⟩ := process_ok pow env ps d (hin.parsed d hd) (hin.dates d hd) hin.periods (by
    intro s hs
    obtain ⟨w, hw⟩ := Option.isSome_iff_exists.mp (hready s hs)
    exact ⟨w, hw, hg.len s w hw⟩)
  have huniq : ∀ d' ∈ defs, d'.id = d.id → d' = d := by
    intro d' hd' he
    obtain ⟨i, hi, rfl⟩ := List.mem_iff_getElem.mp hd
    obtain ⟨j, hj, rfl⟩ := List.mem_iff_getElem.mp hd'
    have hpw := List.pairwise_iff_getElem.mp hin.unique
    rcases Nat.lt_trichotomy i j with h | h | h
    · exact absurd (by rw [List.getElem_map, List.getElem_map]; exact he.symm) (hpw i j (by simpa using hi) (by simpa using hj) h)
    · subst h; rfl
    · exact absurd (by rw [List.getElem_map, List.getElem_map]; exact he) (hpw j i (by simpa using hj) (by simpa using hi) h)
  have hsame : ∀ s, (env.lookup s).isSome → (dictSet d.id v env).lookup s = env.lookup s := by
    intro s hs
    rw [lookup_dictSet, if_neg]
    rintro rfl
    rw [hnone] at hs; simp at hs
  refine ⟨v, hv, ?_, ?_, ?_, ?_⟩
  · intro s hs
    rw [lookup_dictSet, if_neg (fun h => hs d hd h.symm)]
    exact hg.keep s hs
  · intro s w hw
    rw [lookup_dictSet] at hw
    split at hw
    · simp at hw; subst hw; exact hvl
    · exact hg.len s w hw
  · intro d' hd' w hw
    rw [lookup_dictSet] at hw
    have key : (∀ r ∈ d'.required, (env.lookup r).isSome) ∧ d'.process pow env ps = .ok w := by
      split at hw
      · rename_i he
        obtain rfl := huniq d' hd' he
        simp at hw; subst hw
        exact ⟨hready, hv⟩
      · exact hg.done d' hd' w hw
    refine ⟨fun r hr => by rw [hsame r (key.1 r hr)]; exact key.1 r hr, ?_⟩
    rw [← key.2]
    exact process_congr pow _ _ ps d' (fun e he => (hin.parsed d' hd' e he).1) (fun s hs => hsame s (key.1 s hs))
  · obtain ⟨rank, hrank⟩ := hg.ranked
    refine ⟨fun s => if s = d.id then d.required.foldr (fun s m => max (rank s) m) 0 + 1 else rank s, ?_⟩
    have hin' : ∀ r, (env.lookup r).isSome → (given.lookup r).isSome ∨ ∃ d' ∈ defs, d'.id = r := by
      intro r hr
      by_cases h : ∃ d' ∈ defs, d'.id = r
      · exact .inr h
      · simp only [not_exists, not_and] at h
        rw [hg.keep r h] at hr
        exact .inl hr
    intro d' hd' hs r hr
    by_cases he : d'.id = d.id
    · obtain rfl := huniq d' hd' he
      have hrs := hready r hr
      have hrn : r ≠ d'.id := by rintro rfl; rw [hnone] at hrs; simp at hrs
      rcases hin' r hrs with h | ⟨d'', h1, h2⟩
      · exact .inl h
      · refine .inr ⟨d'', h1, h2, ?_⟩
        simp only [if_neg hrn, if_true]
        have := le_foldr_max rank d'.required r hr
        omega
    · rw [lookup_dictSet, if_neg he] at hs
      obtain ⟨w, hw⟩ := Option.isSome_iff_exists.mp hs
      have hrs := (hg.done d' hd' w hw).1 r hr
      have hrn : r ≠ d.id := by rintro rfl; rw [hnone] at hrs; simp at hrs
      rcases hrank d' hd' hs r hr with h | ⟨d'', h1, h2, h3⟩
      · exact .inl h
      · refine .inr ⟨d'', h1, h2, ?_⟩
        simp only [if_neg hrn, if_neg he]
        exact h3

theorem pass_good {pow : Fl → Fl → Fl} {given : Vars} {defs : List Processor} {ps : Periods}
    (hin : Input given defs ps) (n : Nat) : ∀ (vs : List Processor) (env : Vars), vs.length ≤ n →
    Good pow given defs ps env → (∀ d ∈ vs, d ∈ defs) → (vs.map (·.id)).Nodup →
    (∀ d ∈ vs, env.lookup d.id = none) →
    ∃ left env' did, pass pow ps vs env = .ok (left, env', did) ∧ Good pow given defs ps env' ∧
      left.Sublist vs ∧ (∀ d ∈ left, env'.lookup d.id = none) ∧
      (∀ d ∈ vs, d ∈ left ∨ (env'.lookup d.id).isSome) ∧
      (∀ s, (env.lookup s).isSome → (env'.lookup s).isSome) ∧
      (∀ s, (∀ d ∈ vs, d.id ≠ s) → env'.lookup s = env.lookup s) ∧
      (did = false → left = vs ∧ env' = env ∧ ∀ d ∈ vs, ∃ r ∈ d.required, env.lookup r = none) := by
  induction n with
  | zero =>
    intro vs env hn hg _ _ _
    cases vs with
    | nil => exact ⟨[], env, false, rfl, hg, List.Sublist.refl _, by simp, by simp, fun _ h => h, fun _ _ => rfl, fun _ => ⟨rfl, rfl, by simp⟩⟩
    | cons v vs => simp at hn
  | succ n ih =>
    intro vs env hn hg hsub hnd hnone
    cases vs with
    | nil => exact ⟨[], env, false, rfl, hg, List.Sublist.refl _, by simp, by simp, fun _ h => h, fun _ _ => rfl, fun _ => ⟨rfl, rfl, by simp⟩⟩
    | cons v vs =>
      simp only [List.length_cons, Nat.add_le_add_iff_right] at hn
      rw [List.map_cons, List.nodup_cons] at hnd
      rw [pass.eq_def]
      simp only
      by_cases hr : v.required.all (fun r => (env.lookup r).isSome) = true
      · rw [if_pos hr]
        rw [List.all_eq_true] at hr
        obtain ⟨val, hv, hg'⟩ := good_set hin hg v (hsub v (by simp)) (hnone v (by simp)) hr
        rw [hv]
        have hmono : ∀ s, (env.lookup s).isSome → ((dictSet v.id val env).lookup s).isSome := by
          intro s hs; rw [lookup_dictSet]; split <;> simp_all
        cases vs with
        | nil =>
          refine ⟨[], _, true, rfl, hg', by simp, by simp, ?_, hmono, ?_, by simp⟩
          · intro d hd; simp at hd; subst hd; rw [lookup_dictSet]; simp
          · intro s hs; rw [lookup_dictSet, if_neg (fun h => hs v (by simp) h.symm)]
        | cons sk rest =>
          rw [List.map_cons, List.nodup_cons] at hnd
          obtain ⟨left, env', did, h1, h2, h3, h4, h5, h6, h7, h8⟩ := ih rest (dictSet v.id val env)
            (by simp at hn; omega) hg' (fun d hd => hsub d (by simp [hd])) hnd.2.2 (by
              intro d hd
              rw [lookup_dictSet, if_neg]
              · exact hnone d (by simp [hd])
              · intro he; exact hnd.1 (by rw [← he]; simp only [List.mem_cons]; exact .inr (List.mem_map.mpr ⟨d, hd, rfl⟩)))
          refine ⟨sk :: left, env', true, by simp only [h1], h2, ?_, ?_, ?_, ?_, ?_, by simp⟩
          · exact (h3.cons_cons sk).trans (List.sublist_cons_self _ _)
          · intro d hd
            rcases List.mem_cons.mp hd with rfl | hd
            · rw [h7 d.id (by
                intro d' hd' he
                exact hnd.2.1 (by rw [← he]; exact List.mem_map.mpr ⟨d', hd', rfl⟩))]
              rw [lookup_dictSet, if_neg]
              · exact hnone d (by simp)
              · intro he; exact hnd.1 (by rw [← he]; simp)
            · exact h4 d hd
          · intro d hd
            rcases List.mem_cons.mp hd with rfl | hd
            · right; apply h6; rw [lookup_dictSet]; simp
            · rcases List.mem_cons.mp hd with rfl | hd
              · left; simp
              · rcases h5 d hd with h | h
                · left; simp [h]
                · exact .inr h
          · exact fun s hs => h6 s (hmono s hs)
          · intro s hs
            rw [h7 s (fun d hd => hs d (by simp [hd])), lookup_dictSet, if_neg (fun h => hs v (by simp) h.symm)]
      · rw [if_neg hr]
        obtain ⟨left, env', did, h1, h2, h3, h4, h5, h6, h7, h8⟩ := ih vs env hn hg
          (fun d hd => hsub d (by simp [hd])) hnd.2 (fun d hd => hnone d (by simp [hd]))
        refine ⟨v :: left, env', did, by rw [h1], h2, h3.cons_cons v, ?_, ?_, h6, ?_, ?_⟩
        · intro d hd
          rcases List.mem_cons.mp hd with rfl | hd
          · rw [h7 d.id (by
              intro d' hd' he
              exact hnd.1 (by rw [← he]; exact List.mem_map.mpr ⟨d', hd', rfl⟩))]
            exact hnone d (by simp)
          · exact h4 d hd
        · intro d hd
          rcases List.mem_cons.mp hd with rfl | hd
          · left; simp
          · rcases h5 d hd with h | h
            · left; simp [h]
            · exact .inr h
        · intro s hs
          exact h7 s (fun d hd => hs d (by simp [hd]))
        · intro hdid
          obtain ⟨a, b, c⟩ := h8 hdid
          refine ⟨by rw [a], b, fun d hd => ?_⟩
          rcases List.mem_cons.mp hd with rfl | hd
          · simp only [List.all_eq_true, not_forall] at hr
            obtain ⟨r, hr1, hr2⟩ := hr
            exact ⟨r, hr1, Option.not_isSome_iff_eq_none.mp hr2⟩
          · exact c d hd

theorem solve_good {pow : Fl → Fl → Fl} {given : Vars} {defs : List Processor} {ps : Periods}
    (hin : Input given defs ps) (n : Nat) : ∀ (todo : List Processor) (env : Vars), todo.length ≤ n →
    Good pow given defs ps env → (∀ d ∈ todo, d ∈ defs) → (todo.map (·.id)).Nodup →
    (∀ d ∈ todo, env.lookup d.id = none) → (∀ d ∈ defs, d ∈ todo ∨ (env.lookup d.id).isSome) →
    ∃ left env', solve pow ps todo env = .ok (left, env') ∧ Good pow given defs ps env' ∧
      (∀ d ∈ left, d ∈ defs ∧ env'.lookup d.id = none) ∧
      (∀ d ∈ defs, d ∈ left ∨ (env'.lookup d.id).isSome) ∧
      (∀ d ∈ left, ∃ r ∈ d.required, env'.lookup r = none) := by
  induction n with
  | zero =>
    intro todo env hn hg _ _ _ hall
    cases todo with
    | nil =>
      refine ⟨[], env, by rw [solve]; simp, hg, by simp, hall, by simp⟩
    | cons v vs => simp at hn
  | succ n ih =>
    intro todo env hn hg hsub hnd hnone hall
    by_cases hnil : todo = []
    · subst hnil; exact ⟨[], env, by rw [solve]; simp, hg, by simp, hall, by simp⟩
    · obtain ⟨left, env', did, h1, h2, h3, h4, h5, h6, h7, h8⟩ :=
        pass_good hin todo.length todo env (Nat.le_refl _) hg hsub hnd hnone
      have hall' : ∀ d ∈ defs, d ∈ left ∨ (env'.lookup d.id).isSome := by
        intro d hd
        rcases hall d hd with h | h
        · exact h5 d h
        · exact .inr (h6 _ h)
      have hsolve : solve pow ps todo env = if did = true then solve pow ps left env' else .ok (left, env') := by
        rw [solve, if_neg hnil]
        split
        · rename_i e he; rw [h1] at he; simp at he
        · rename_i l e dd he
          rw [h1] at he
          simp only [Except.ok.injEq, Prod.mk.injEq] at he
          obtain ⟨rfl, rfl, rfl⟩ := he
          split <;> rfl
      rw [hsolve]
      cases did with
      | true =>
        rw [if_pos rfl]
        have hlt := (pass_shrinks pow ps _ todo env left env' true (Nat.le_refl _) h1).2 rfl
        exact ih left env' (by omega) h2 (fun d hd => hsub d (h3.subset hd)) (hnd.sublist (h3.map _)) h4 hall'
      | false =>
        obtain ⟨rfl, rfl, hstuck⟩ := h8 rfl
        exact ⟨left, env', by simp, h2, fun d hd => ⟨hsub d hd, h4 d hd⟩, hall', hstuck⟩

theorem min_rank {α : Type} (f : α → Nat) (l : List α) (h : l ≠ []) : ∃ a ∈ l, ∀ b ∈ l, f a ≤ f b := by
  induction l with
  | nil => simp at h
  | cons a l ih =>
    by_cases hl : l = []
    · subst hl; exact ⟨a, by simp, by simp⟩
    · obtain ⟨b, hb, hm⟩ := ih hl
      by_cases hab : f a ≤ f b
      · exact ⟨a, by simp, fun c hc => by
          rcases List.mem_cons.mp hc with rfl | hc
          · exact Nat.le_refl _
          · exact Nat.le_trans hab (hm c hc)⟩
      · exact ⟨b, by simp [hb], fun c hc => by
          rcases List.mem_cons.mp hc with rfl | hc
          · omega
          · exact hm c hc⟩

theorem good_init {pow : Fl → Fl → Fl} {given : Vars} {defs : List Processor} {ps : Periods}
    (hin : Input given defs ps) : Good pow given defs ps given := by
  refine ⟨fun _ _ => rfl, hin.lengths, ?_, ⟨fun _ => 0, ?_⟩⟩
  · intro d hd v hv; rw [hin.fresh d hd] at hv; simp at hv
  · intro d hd hv; rw [hin.fresh d hd] at hv; simp at hv

theorem outcome (pow : Fl → Fl → Fl) {given : Vars} {defs : List Processor} {ps : Periods}
    (hin : Input given defs ps) :
    (∃ env, evaluateVariables pow defs given ps = .ok env ∧ Solution pow given defs ps env ∧ Resolvable given defs) ∨
    (evaluateVariables pow defs given ps = .error .invalidKeys ∧ ¬ Resolvable given defs) := by
  obtain ⟨left, env, h1, h2, h3, h4, h5⟩ := solve_good (pow := pow) hin defs.length defs given (Nat.le_refl _)
    (good_init hin) (fun _ h => h) hin.unique hin.fresh (fun _ h => .inl h)
  unfold evaluateVariables
  rw [h1]
  simp only [Bind.bind, Except.bind, Pure.pure, Except.pure]
  by_cases hl : left = []
  · subst hl
    rw [if_pos rfl]
    refine .inl ⟨env, rfl, ⟨h2.keep, ?_⟩, ?_⟩
    · intro d hd
      rcases h4 d hd with h | h
      · simp at h
      · obtain ⟨v, hv⟩ := Option.isSome_iff_exists.mp h
        exact ⟨v, hv, (h2.done d hd v hv).2⟩
    · obtain ⟨rank, hrank⟩ := h2.ranked
      refine ⟨rank, fun d hd r hr => ?_⟩
      rcases h4 d hd with h | h
      · simp at h
      · exact hrank d hd h r ((required_iff d r).mpr hr)
  · rw [if_neg hl]
    refine .inr ⟨rfl, ?_⟩
    rintro ⟨rank, hrank⟩
    obtain ⟨d, hd, hmin⟩ := min_rank (fun d => rank d.id) left hl
    obtain ⟨r, hr, hrn⟩ := h5 d hd
    rcases hrank d (h3 d hd).1 r ((required_iff d r).mp hr) with h | ⟨d', g1, g2, g3⟩
    · have : ∀ d' ∈ defs, d'.id ≠ r := by
        rintro d' hd' rfl
        rw [hin.fresh d' hd'] at h; simp at h
      rw [h2.keep r this] at hrn
      rw [hrn] at h; simp at h
    · rcases h4 d' g1 with h | h
      · have := hmin d' h
        rw [g2] at this; omega
      · rw [g2, hrn] at h; simp at h

theorem solution_unique (pow : Fl → Fl → Fl) {given : Vars} {defs : List Processor} {ps : Periods}
    (hin : Input given defs ps) (hres : Resolvable given defs) (env env' : Vars)
    (h : Solution pow given defs ps env) (h' : Solution pow given defs ps env') (s : String) :
    env.lookup s = env'.lookup s := by
  obtain ⟨rank, hrank⟩ := hres
  have hout : ∀ s, (∀ d ∈ defs, d.id ≠ s) → env.lookup s = env'.lookup s := by
    intro s hs; rw [h.1 s hs, h'.1 s hs]
  have : ∀ n, ∀ d ∈ defs, rank d.id ≤ n → env.lookup d.id = env'.lookup d.id := by
    intro n
    induction n with
    | zero =>
      intro d hd hn
      obtain ⟨v, v1, v2⟩ := h.2 d hd
      obtain ⟨w, w1, w2⟩ := h'.2 d hd
      rw [process_congr pow env env' ps d (fun e he => (hin.parsed d hd e he).1) (by
        intro r hr
        rcases hrank d hd r ((required_iff d r).mp hr) with hg | ⟨d', _, _, g3⟩
        · apply hout
          rintro d' hd' rfl
          rw [hin.fresh d' hd'] at hg; simp at hg
        · omega)] at v2
      rw [v1, w1]
      rw [v2] at w2
      rw [Except.ok.inj w2]
    | succ n ih =>
      intro d hd hn
      obtain ⟨v, v1, v2⟩ := h.2 d hd
      obtain ⟨w, w1, w2⟩ := h'.2 d hd
      rw [process_congr pow env env' ps d (fun e he => (hin.parsed d hd e he).1) (by
        intro r hr
        rcases hrank d hd r ((required_iff d r).mp hr) with hg | ⟨d', g1, g2, g3⟩
        · apply hout
          rintro d' hd' rfl
          rw [hin.fresh d' hd'] at hg; simp at hg
        · rw [← g2]; exact ih d' g1 (by rw [g2]; omega))] at v2
      rw [v1, w1]
      rw [v2] at w2
      rw [Except.ok.inj w2]
  by_cases hs : ∃ d ∈ defs, d.id = s
  · obtain ⟨d, hd, rfl⟩ := hs
    exact this _ d hd (Nat.le_refl _)
  · simp only [not_exists, not_and] at hs
    exact hout s hs

theorem input_perm {given : Vars} {defs defs' : List Processor} {ps : Periods} (hp : defs.Perm defs')
    (hin : Input given defs ps) : Input given defs' ps :=
  ⟨(hp.map _).nodup_iff.mp hin.unique, fun d hd => hin.fresh d (hp.mem_iff.mpr hd), hin.lengths,
    fun d hd => hin.parsed d (hp.mem_iff.mpr hd), fun d hd => hin.dates d (hp.mem_iff.mpr hd), hin.periods⟩

/-! ## Property theorems -/

/-- If the references are acyclic and all names exist, every variable gets the value its definition yields under
the final values. -/
theorem C17_resolves (pow : Fl → Fl → Fl) (given : Vars) (defs : List Processor) (ps : Periods)
    (hin : Input given defs ps) (hres : Resolvable given defs) :
    ∃ env, evaluateVariables pow defs given ps = .ok env ∧ Solution pow given defs ps env := by
  rcases outcome pow hin with ⟨env, h1, h2, -⟩ | ⟨-, h⟩
  · exact ⟨env, h1, h2⟩
  · exact absurd hres h

/-- Otherwise (a cycle or a missing name) the input is rejected. -/
theorem C17_unresolvable_rejected (pow : Fl → Fl → Fl) (given : Vars) (defs : List Processor) (ps : Periods)
    (hin : Input given defs ps) (hres : ¬ Resolvable given defs) :
    evaluateVariables pow defs given ps = .error .invalidKeys := by
  rcases outcome pow hin with ⟨env, -, -, h⟩ | ⟨h, -⟩
  · exact absurd h hres
  · exact h

/-- The values are determined by the definitions. -/
theorem C17_solution_unique (pow : Fl → Fl → Fl) (given : Vars) (defs : List Processor) (ps : Periods)
    (hin : Input given defs ps) (hres : Resolvable given defs) (env env' : Vars)
    (h : Solution pow given defs ps env) (h' : Solution pow given defs ps env') (s : String) :
    env.lookup s = env'.lookup s := solution_unique pow hin hres env env' h h' s

/-- Listing the variables in another order gives the same values, or the same rejection. -/
theorem C17_order_independent (pow : Fl → Fl → Fl) (given : Vars) (defs defs' : List Processor) (ps : Periods)
    (hin : Input given defs ps) (hp : defs.Perm defs') :
    (∃ env env', evaluateVariables pow defs given ps = .ok env ∧ evaluateVariables pow defs' given ps = .ok env' ∧
      ∀ s, env.lookup s = env'.lookup s) ∨
    (evaluateVariables pow defs given ps = .error .invalidKeys ∧
      evaluateVariables pow defs' given ps = .error .invalidKeys) := by
  have hin' := input_perm hp hin
  have hmem : ∀ d, d ∈ defs ↔ d ∈ defs' := fun d => hp.mem_iff
  have hr : Resolvable given defs ↔ Resolvable given defs' := by
    unfold Resolvable; simp only [hmem]
  have hs : ∀ env, Solution pow given defs ps env ↔ Solution pow given defs' ps env := by
    intro env; unfold Solution; simp only [hmem]
  rcases outcome pow hin with ⟨env, h1, h2, h3⟩ | ⟨h1, h2⟩
  · rcases outcome pow hin' with ⟨env', g1, g2, g3⟩ | ⟨-, g2⟩
    · exact .inl ⟨env, env', h1, g1, solution_unique pow hin h3 env env' h2 ((hs env').mpr g2)⟩
    · exact absurd (hr.mp h3) g2
  · rcases outcome pow hin' with ⟨env', -, -, g3⟩ | ⟨g1, -⟩
    · exact absurd (hr.mpr g3) h2
    · exact .inr ⟨h1, g1⟩

/-! ## Non-vacuity -/

/-- `$var.b + 1`. -/
def defA : Processor := ⟨"a", .single ⟨[.ref "b", .op .add, .num 1], .node (.op .add) (.leaf (.ref "b")) (.leaf (.num 1))⟩⟩
/-- `x * 2`. -/
def defB : Processor := ⟨"b", .single ⟨[.ref "x", .op .mul, .num 2], .node (.op .mul) (.leaf (.ref "x")) (.leaf (.num 2))⟩⟩

example : Input [("x", [some 1, some 2])] [defA, defB] [⟨0, 10⟩, ⟨10, 20⟩] := by
  refine ⟨by decide, ?_, ?_, ?_, ?_, by simp⟩
  · simp [defA, defB]
  · intro s vs h
    simp only [List.lookup_cons, List.lookup_nil] at h
    split at h
    · simp at h; subst h; rfl
    · simp at h
  · intro d hd e he
    simp at hd
    rcases hd with rfl | rfl
    · simp [exprs, defA] at he; subst he; exact ⟨by decide +kernel, by intro s; simp⟩
    · simp [exprs, defB] at he; subst he; exact ⟨by decide +kernel, by intro s; simp⟩
  · intro d hd es h
    simp at hd
    rcases hd with rfl | rfl <;> simp [defA, defB] at h

example : Resolvable [("x", [some 1, some 2])] [defA, defB] := by
  refine ⟨fun s => if s = "a" then 1 else 0, fun d hd r hr => ?_⟩
  simp at hd
  rcases hd with rfl | rfl
  · obtain ⟨e, he, hr⟩ := hr
    simp [exprs, defA] at he; subst he
    simp at hr; subst hr
    exact .inr ⟨defB, by simp, rfl, by simp [defA]⟩
  · obtain ⟨e, he, hr⟩ := hr
    simp [exprs, defB] at he; subst he
    simp at hr; subst hr
    exact .inl rfl

/-- A variable that refers to itself is not resolvable. -/
example : ¬ Resolvable [] [⟨"a", .single ⟨[.ref "a"], .leaf (.ref "a")⟩⟩] := by
  rintro ⟨rank, h⟩
  rcases h ⟨"a", .single ⟨[.ref "a"], .leaf (.ref "a")⟩⟩ (by simp) "a"
    ⟨⟨[.ref "a"], .leaf (.ref "a")⟩, by simp [exprs], by simp⟩ with h | ⟨d', h1, h2, h3⟩
  · simp at h
  · exact Nat.lt_irrefl _ h3

end Verif.C17
