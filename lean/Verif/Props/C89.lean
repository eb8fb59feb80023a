import Verif.Model.Run
import Verif.Props.C04
import Verif.Props.C33

/-! # C89 — A run evaluates every component of the file once, consumers before the generator set that feeds them -/

namespace Verif.C89
open Verif.Time Verif.GraphModel Verif.Run

variable {μ ι ρ R : Type}

/-! ## Specification -/

/-- Both, one after the other; the first error counts. -/
def andThen {β : Type} (a b : Except Err (List β)) : Except Err (List β) :=
  match a with
  | .error e => .error e
  | .ok x =>
    match b with
    | .error e => .error e
    | .ok y => .ok (x ++ y)

/-- Evaluate one after the other, stop at the first error, put the results after each other. -/
def gather {α β : Type} (f : α → Except Err (List β)) : List α → Except Err (List β)
  | [] => .ok []
  | a :: as =>
    andThen (f a) (gather f as)

/-- Specification: the result of a consumer. Without a model in the period of the file it has none. Otherwise it is made
from the results of the models of all its periods, or, for consumer functions, by the consumer itself. -/
def consumerSpec (ev : Eval μ ι ρ R) (f : μ → ι → ρ) (y : YConsumer μ ι) : Except Err (List (String × R)) :=
  if y.models = [] then .ok []
  else if y.models.all (fun pm => pm.2.kind == .function) then (ev.consumer y).map (fun r => [(y.name, r)])
  else .ok [(y.name, ev.combine y (y.models.map (fun pm => (pm.2.input, f pm.2.model pm.2.input))))]

/-- Specification: the results of the consumers of a generator set, then the result of the set from exactly these. -/
def gensetSpec (ev : Eval μ ι ρ R) (f : μ → ι → ρ) (y : YGenset μ ι) : Except Err (List (String × R)) :=
  match gather (consumerSpec ev f) y.consumers with
  | .error e => .error e
  | .ok cs => (ev.genset y (cs.map (·.2))).map (fun r => cs ++ [(y.name, r)])

/-- Specification: an installation has the results of its generator sets and of its fuel consumers. -/
def installationSpec (ev : Eval μ ι ρ R) (f : μ → ι → ρ) (y : YInstallation μ ι) : Except Err (List (String × R)) :=
  andThen (gather (gensetSpec ev f) y.gensets) (gather (consumerSpec ev f) y.consumers)

/-- All consumers of a file. -/
def consumersOf (file : List (YInstallation μ ι)) : List (YConsumer μ ι) :=
  file.flatMap fun i => i.gensets.flatMap (·.consumers) ++ i.consumers

/-- The consumers of a file are fit to be run: the periods of a consumer are different (they are keys of a mapping), and a
consumer does not mix consumer functions with registered models (`validate_energy_usage_models`,
energy_model_validation.py:9-25, forbids to change the type over time). -/
def Fit (y : YConsumer μ ι) : Prop :=
  (y.models.map (·.1)).Nodup ∧
  ((∀ pm ∈ y.models, pm.2.kind = .function) ∨ (∀ pm ∈ y.models, pm.2.kind ≠ .function))

/-! ## Laying out ids -/

/-- Ids of components that take up `size` ids each. -/
def lay {α : Type} (size : α → Nat) : Nat → List α → List (Nat × α)
  | _, [] => []
  | n, a :: as => (n, a) :: lay size (n + size a) as

/-- Ids taken up by a list. -/
def total {α : Type} (size : α → Nat) (as : List α) : Nat := (as.map size).sum

theorem lay_append {α : Type} (size : α → Nat) (n : Nat) (as bs : List α) :
    lay size n (as ++ bs) = lay size n as ++ lay size (n + total size as) bs := by
  induction as generalizing n with
  | nil => simp [lay, total]
  | cons a as ih => simp [lay, ih, total, Nat.add_assoc]

theorem mem_lay {α : Type} {size : α → Nat} {n k : Nat} {as : List α} {a : α} (h : (k, a) ∈ lay size n as) :
    a ∈ as ∧ n ≤ k ∧ k + size a ≤ n + total size as := by
  induction as generalizing n with
  | nil => simp [lay] at h
  | cons b as ih =>
    simp only [lay, List.mem_cons, Prod.mk.injEq] at h
    simp only [total, List.map_cons, List.sum_cons]
    rcases h with ⟨rfl, rfl⟩ | h
    · exact ⟨by simp, by omega, by omega⟩
    · have := ih h
      simp only [total] at this
      exact ⟨by simp [this.1], by omega, by omega⟩

theorem lay_pairwise {α : Type} (size : α → Nat) (n : Nat) (as : List α) :
    (lay size n as).Pairwise (fun x y => x.1 + size x.2 ≤ y.1) := by
  induction as generalizing n with
  | nil => simp [lay]
  | cons a as ih =>
    simp only [lay]
    refine List.pairwise_cons.mpr ⟨?_, ih _⟩
    rintro ⟨k, b⟩ hb
    have := mem_lay hb
    simp only; omega

theorem lay_map_snd {α : Type} (size : α → Nat) (n : Nat) (as : List α) : (lay size n as).map (·.2) = as := by
  induction as generalizing n with
  | nil => rfl
  | cons a as ih => simp [lay, ih]

/-- The registered models of a consumer. -/
def reg (y : YConsumer μ ι) : List (Period × YModel μ ι) := y.models.filter (fun pm => !(pm.2.kind == .function))

def sizeC (y : YConsumer μ ι) : Nat := 1 + (reg y).length
def sizeG (y : YGenset μ ι) : Nat := 1 + total sizeC y.consumers
def sizeE (_ : String) : Nat := 1
def sizeI (y : YInstallation μ ι) : Nat :=
  1 + total sizeG y.gensets + total sizeC y.consumers + total sizeE y.emitters

/-- A registered model: its id, its consumer and period, and what it is. -/
structure Reg (μ ι : Type) where
  mid : Nat
  consumer : Nat
  period : Period
  y : YModel μ ι

/-- What mapping a part of the file adds. -/
structure Delta (μ ι : Type) where
  nodes : List (NodeID × Comp μ ι)
  edges : List (NodeID × NodeID)
  regs : List (Reg μ ι)

def Delta.app (a b : Delta μ ι) : Delta μ ι := ⟨a.nodes ++ b.nodes, a.edges ++ b.edges, a.regs ++ b.regs⟩

def Delta.nil : Delta μ ι := ⟨[], [], []⟩

def Delta.add (d : Delta μ ι) (parent id : Nat) (c : Comp μ ι) : Delta μ ι :=
  ⟨d.nodes ++ [(.uuid id, c)], d.edges ++ [(.uuid parent, .uuid id)], d.regs⟩

def concat (ds : List (Delta μ ι)) : Delta μ ι :=
  ⟨ds.flatMap (·.nodes), ds.flatMap (·.edges), ds.flatMap (·.regs)⟩

/-- Registrations of the models of a consumer. -/
def regsFrom (consumer : Nat) : Nat → List (Period × YModel μ ι) → List (Reg μ ι)
  | _, [] => []
  | n, pm :: rest => ⟨n, consumer, pm.1, pm.2⟩ :: regsFrom consumer (n + 1) rest

def deltaC (parent : Nat) (x : Nat × YConsumer μ ι) : Delta μ ι :=
  if x.2.models = [] then Delta.nil
  else ⟨[(.uuid x.1, .consumer x.2)], [(.uuid parent, .uuid x.1)], regsFrom x.1 (x.1 + 1) (reg x.2)⟩

def deltaG (parent : Nat) (x : Nat × YGenset μ ι) : Delta μ ι :=
  (concat ((lay sizeC (x.1 + 1) x.2.consumers).map (deltaC x.1))).add parent x.1 (.genset x.2)

def deltaE (parent : Nat) (x : Nat × String) : Delta μ ι :=
  Delta.nil.add parent x.1 (.emitter x.2)

def deltaI (parent : Nat) (x : Nat × YInstallation μ ι) : Delta μ ι :=
  (((concat ((lay sizeG (x.1 + 1) x.2.gensets).map (deltaG x.1))).app
    (concat ((lay sizeC (x.1 + 1 + total sizeG x.2.gensets) x.2.consumers).map (deltaC x.1)))).app
    (concat ((lay sizeE (x.1 + 1 + total sizeG x.2.gensets + total sizeC x.2.consumers) x.2.emitters).map
      (deltaE x.1)))).add parent x.1 (.installation x.2.name)

/-- The state of the mapping made of what has been added. -/
def toSt (n : Nat) (d : Delta μ ι) : St μ ι where
  next := n
  builder := ⟨d.nodes, d.edges⟩
  trains := (d.regs.filter (fun r => r.y.kind == .train)).map (fun r => (r.mid, r.y.model))
  pumps := (d.regs.filter (fun r => r.y.kind == .pump)).map (fun r => (r.mid, r.y.model))
  sampled := (d.regs.filter (fun r => r.y.kind == .sampled)).map (fun r => (r.mid, r.y.model))
  inputs := d.regs.map (fun r => (r.mid, r.y.input))
  modelOf := d.regs.map (fun r => ((r.consumer, r.period), r.mid))

/-- Everything in `d` has ids in `[lo, hi)`, without repetitions. -/
structure Within (d : Delta μ ι) (lo hi : Nat) : Prop where
  nodes : ∀ kv ∈ d.nodes, ∃ k, kv.1 = .uuid k ∧ lo ≤ k ∧ k < hi
  regs : ∀ r ∈ d.regs, lo ≤ r.mid ∧ r.mid < hi ∧ lo ≤ r.consumer ∧ r.consumer < hi
  nodupNodes : (d.nodes.map (·.1)).Nodup
  nodupMids : (d.regs.map (·.mid)).Nodup

theorem within_nil (lo hi : Nat) : Within (Delta.nil : Delta μ ι) lo hi :=
  ⟨by simp [Delta.nil], by simp [Delta.nil], by simp [Delta.nil], by simp [Delta.nil]⟩

theorem Within.mono {d : Delta μ ι} {lo hi lo' hi' : Nat} (h : Within d lo hi) (h1 : lo' ≤ lo) (h2 : hi ≤ hi') :
    Within d lo' hi' := by
  refine ⟨?_, ?_, h.nodupNodes, h.nodupMids⟩
  · intro kv hkv
    obtain ⟨k, e, a, b⟩ := h.nodes kv hkv
    exact ⟨k, e, by omega, by omega⟩
  · intro r hr
    have := h.regs r hr
    omega

theorem within_app {a b : Delta μ ι} {lo mid hi : Nat} (ha : Within a lo mid) (hb : Within b mid hi)
    (h1 : lo ≤ mid) (h2 : mid ≤ hi) : Within (a.app b) lo hi := by
  refine ⟨?_, ?_, ?_, ?_⟩
  · intro kv hkv
    rcases List.mem_append.mp hkv with h | h
    · obtain ⟨k, e, x, y⟩ := ha.nodes kv h; exact ⟨k, e, by omega, by omega⟩
    · obtain ⟨k, e, x, y⟩ := hb.nodes kv h; exact ⟨k, e, by omega, by omega⟩
  · intro r hr
    rcases List.mem_append.mp hr with h | h
    · have := ha.regs r h; omega
    · have := hb.regs r h; omega
  · simp only [Delta.app, List.map_append, List.nodup_append]
    refine ⟨ha.nodupNodes, hb.nodupNodes, ?_⟩
    intro x hx z hz
    obtain ⟨kv, h, rfl⟩ := List.mem_map.mp hx
    obtain ⟨kv', h', rfl⟩ := List.mem_map.mp hz
    obtain ⟨k, e, x, y⟩ := ha.nodes kv h
    obtain ⟨k', e', x', y'⟩ := hb.nodes kv' h'
    rw [e, e']
    intro c; injection c; omega
  · simp only [Delta.app, List.map_append, List.nodup_append]
    refine ⟨ha.nodupMids, hb.nodupMids, ?_⟩
    intro x hx z hz
    obtain ⟨kv, h, rfl⟩ := List.mem_map.mp hx
    obtain ⟨kv', h', rfl⟩ := List.mem_map.mp hz
    have := ha.regs kv h
    have := hb.regs kv' h'
    omega

theorem concat_cons (d : Delta μ ι) (ds : List (Delta μ ι)) : concat (d :: ds) = d.app (concat ds) := by
  simp [concat, Delta.app]

theorem app_assoc (a b c : Delta μ ι) : (a.app b).app c = a.app (b.app c) := by
  simp [Delta.app, List.append_assoc]

theorem app_nil (a : Delta μ ι) : a.app Delta.nil = a := by
  simp [Delta.app, Delta.nil]

theorem concat_nil : concat ([] : List (Delta μ ι)) = Delta.nil := rfl

theorem app_add (a b : Delta μ ι) (p n : Nat) (c : Comp μ ι) : a.app (b.add p n c) = (a.app b).add p n c := by
  simp [Delta.app, Delta.add, List.append_assoc]

theorem within_concat {α : Type} (size : α → Nat) (δ : Nat × α → Delta μ ι) (lo : Nat) (as : List α)
    (h : ∀ x ∈ lay size lo as, Within (δ x) x.1 (x.1 + size x.2)) :
    Within (concat ((lay size lo as).map δ)) lo (lo + total size as) := by
  induction as generalizing lo with
  | nil => exact within_nil _ _
  | cons a as ih =>
    simp only [lay, List.map_cons, concat_cons]
    refine within_app (mid := lo + size a) (h (lo, a) (by simp [lay])) ?_ (by omega) ?_
    · have := ih (lo + size a) (fun x hx => h x (by simp [lay, hx]))
      rw [show lo + total size (a :: as) = lo + size a + total size as by simp [total]; omega]
      exact this
    · simp only [total, List.map_cons, List.sum_cons]; omega

theorem within_add {d : Delta μ ι} {lo hi : Nat} (h : Within d (lo + 1) hi) (hh : lo < hi) (p : Nat) (c : Comp μ ι) :
    Within (d.add p lo c) lo hi := by
  refine ⟨?_, fun r hr => by have := h.regs r hr; omega, ?_, h.nodupMids⟩
  · intro kv hkv
    rcases List.mem_append.mp hkv with h' | h'
    · obtain ⟨k, e, x, y⟩ := h.nodes kv h'; exact ⟨k, e, by omega, by omega⟩
    · simp at h'; subst h'; exact ⟨lo, rfl, by omega, hh⟩
  · simp only [Delta.add, List.map_append, List.map_cons, List.map_nil, List.nodup_append]
    refine ⟨h.nodupNodes, by simp, ?_⟩
    intro x hx z hz
    obtain ⟨kv, h', rfl⟩ := List.mem_map.mp hx
    simp at hz; subst hz
    obtain ⟨k, e, a, b⟩ := h.nodes kv h'
    rw [e]; intro c; injection c; omega

theorem regsFrom_spec (c n : Nat) (pms : List (Period × YModel μ ι)) :
    (∀ r ∈ regsFrom c n pms, n ≤ r.mid ∧ r.mid < n + pms.length ∧ r.consumer = c) ∧
    ((regsFrom c n pms).map (·.mid)).Nodup ∧
    (regsFrom c n pms).map (fun r => (r.period, r.y)) = pms := by
  induction pms generalizing n with
  | nil => simp [regsFrom]
  | cons pm pms ih =>
    obtain ⟨h1, h2, h3⟩ := ih (n + 1)
    refine ⟨?_, ?_, by simp [regsFrom, h3]⟩
    · intro r hr
      simp only [regsFrom, List.mem_cons] at hr
      rcases hr with rfl | hr
      · simp
      · have := h1 r hr
        simp only [List.length_cons]; omega
    · simp only [regsFrom, List.map_cons, List.nodup_cons]
      refine ⟨?_, h2⟩
      intro hm
      obtain ⟨r, hr, e⟩ := List.mem_map.mp hm
      have := h1 r hr
      omega

theorem within_C (p : Nat) (x : Nat × YConsumer μ ι) : Within (deltaC p x) x.1 (x.1 + sizeC x.2) := by
  unfold deltaC
  by_cases h : x.2.models = []
  · rw [if_pos h]; exact within_nil _ _
  · rw [if_neg h]
    obtain ⟨h1, h2, -⟩ := regsFrom_spec x.1 (x.1 + 1) (reg x.2)
    refine ⟨?_, ?_, by simp, h2⟩
    · intro kv hkv; simp at hkv; subst hkv; exact ⟨x.1, rfl, by omega, by simp only [sizeC]; omega⟩
    · intro r hr
      have := h1 r hr
      simp only [sizeC]; omega

theorem within_G (p : Nat) (x : Nat × YGenset μ ι) : Within (deltaG p x) x.1 (x.1 + sizeG x.2) := by
  unfold deltaG
  refine within_add ?_ (by simp only [sizeG]; omega) _ _
  have := within_concat (μ := μ) (ι := ι) sizeC (deltaC x.1) (x.1 + 1) x.2.consumers (fun y _ => within_C _ y)
  rw [show x.1 + sizeG x.2 = x.1 + 1 + total sizeC x.2.consumers by simp [sizeG]; omega]
  exact this

theorem within_E (p : Nat) (x : Nat × String) : Within (deltaE p x : Delta μ ι) x.1 (x.1 + sizeE x.2) := by
  unfold deltaE
  exact within_add (within_nil _ _) (by simp [sizeE]) _ _

theorem within_I (p : Nat) (x : Nat × YInstallation μ ι) : Within (deltaI p x) x.1 (x.1 + sizeI x.2) := by
  unfold deltaI
  refine within_add ?_ (by simp only [sizeI]; omega) _ _
  have h1 := within_concat (μ := μ) (ι := ι) sizeG (deltaG x.1) (x.1 + 1) x.2.gensets (fun y _ => within_G _ y)
  have h2 := within_concat (μ := μ) (ι := ι) sizeC (deltaC x.1) (x.1 + 1 + total sizeG x.2.gensets) x.2.consumers
    (fun y _ => within_C _ y)
  have h3 := within_concat (μ := μ) (ι := ι) sizeE (deltaE x.1)
    (x.1 + 1 + total sizeG x.2.gensets + total sizeC x.2.consumers) x.2.emitters (fun y _ => within_E _ y)
  rw [show x.1 + sizeI x.2 = x.1 + 1 + total sizeG x.2.gensets + total sizeC x.2.consumers +
    total sizeE x.2.emitters by simp only [sizeI]; omega]
  exact within_app (within_app h1 h2 (by omega) (by omega)) h3 (by omega) (by omega)

/-! ## The mapping builds the layout -/

theorem dictSet_new {κ α : Type} [DecidableEq κ] (k : κ) (v : α) (l : List (κ × α)) (h : ∀ kv ∈ l, kv.1 ≠ k) :
    dictSet k v l = l ++ [(k, v)] := C04.dictSet_append k v l h

theorem registerModel_spec (c n : Nat) (d : Delta μ ι) (h : Within d 0 n)
    (pm : Period × YModel μ ι) (hp : ∀ r ∈ d.regs, ¬ (r.consumer = c ∧ r.period = pm.1)) :
    registerModel c (toSt n d) pm =
      if pm.2.kind = .function then toSt n d
      else toSt (n + 1) ⟨d.nodes, d.edges, d.regs ++ [⟨n, c, pm.1, pm.2⟩]⟩ := by
  have k1 : ∀ (P : Reg μ ι → Bool), ∀ kv ∈ (d.regs.filter P).map (fun r => (r.mid, r.y.model)), kv.1 ≠ n := by
    intro P kv hkv
    obtain ⟨r, hr, rfl⟩ := List.mem_map.mp hkv
    have := h.regs r (List.mem_filter.mp hr).1
    simp only; omega
  have k2 : ∀ kv ∈ d.regs.map (fun r => (r.mid, r.y.input)), kv.1 ≠ n := by
    intro kv hkv
    obtain ⟨r, hr, rfl⟩ := List.mem_map.mp hkv
    have := h.regs r hr
    simp only; omega
  have k3 : ∀ kv ∈ d.regs.map (fun r => ((r.consumer, r.period), r.mid)), kv.1 ≠ (c, pm.1) := by
    intro kv hkv
    obtain ⟨r, hr, rfl⟩ := List.mem_map.mp hkv
    have := hp r hr
    simp only [ne_eq, Prod.mk.injEq]
    exact this
  unfold registerModel
  cases hk : pm.2.kind with
  | function => simp
  | train =>
    simp only [toSt, reduceCtorEq, if_false]
    rw [dictSet_new _ _ _ (k1 _), dictSet_new _ _ _ k2, dictSet_new _ _ _ k3]
    simp [hk]
  | pump =>
    simp only [toSt, reduceCtorEq, if_false]
    rw [dictSet_new _ _ _ (k1 _), dictSet_new _ _ _ k2, dictSet_new _ _ _ k3]
    simp [hk]
  | sampled =>
    simp only [toSt, reduceCtorEq, if_false]
    rw [dictSet_new _ _ _ (k1 _), dictSet_new _ _ _ k2, dictSet_new _ _ _ k3]
    simp [hk]

theorem registerModels_spec (c : Nat) (pms : List (Period × YModel μ ι)) (n : Nat) (d : Delta μ ι)
    (h : Within d 0 n) (hc : c < n) (hp : ∀ r ∈ d.regs, r.consumer = c → r.period ∉ pms.map (·.1))
    (hn : (pms.map (·.1)).Nodup) :
    pms.foldl (registerModel c) (toSt n d) =
      toSt (n + (pms.filter (fun pm => !(pm.2.kind == .function))).length)
        ⟨d.nodes, d.edges, d.regs ++ regsFrom c n (pms.filter (fun pm => !(pm.2.kind == .function)))⟩ := by
  induction pms generalizing n d with
  | nil => simp [regsFrom]
  | cons pm pms ih =>
    have hn' := List.nodup_cons.mp hn
    rw [List.foldl_cons, registerModel_spec c n d h pm (by
      rintro r hr ⟨e1, e2⟩
      exact hp r hr e1 (by rw [e2]; simp))]
    by_cases hk : pm.2.kind = .function
    · rw [if_pos hk, ih n d h hc (fun r hr e hm => hp r hr e (List.mem_cons_of_mem _ hm)) hn'.2]
      simp [hk]
    · rw [if_neg hk, ih]
      · simp [hk, regsFrom, Nat.add_assoc, Nat.add_comm 1]
      · refine ⟨?_, ?_, h.nodupNodes, ?_⟩
        · intro kv hkv
          obtain ⟨k, e, x, y⟩ := h.nodes kv hkv
          exact ⟨k, e, x, by omega⟩
        · intro r hr
          rcases List.mem_append.mp hr with hr | hr
          · have := h.regs r hr; omega
          · simp at hr; subst hr; simp only; omega
        · simp only [List.map_append, List.map_cons, List.map_nil, List.nodup_append]
          refine ⟨h.nodupMids, by simp, ?_⟩
          intro x hx z hz
          obtain ⟨r, hr, rfl⟩ := List.mem_map.mp hx
          simp at hz; subst hz
          have := h.regs r hr; omega
      · omega
      · intro r hr e hm
        rcases List.mem_append.mp hr with hr | hr
        · exact hp r hr e (List.mem_cons_of_mem _ hm)
        · simp at hr; subst hr; exact hn'.1 hm
      · exact hn'.2

theorem toSt_register (n : Nat) (d : Delta μ ι) (id p : Nat) (c : Comp μ ι) (h : ∀ kv ∈ d.nodes, kv.1 ≠ .uuid id) :
    (toSt n d).register id (some p) c = toSt n (d.add p id c) := by
  simp [St.register, toSt, Builder.register, Delta.add, dictSet_new _ _ _ h]

theorem mapConsumer_spec (p n : Nat) (d : Delta μ ι) (y : YConsumer μ ι) (h : Within d 0 n)
    (hn : (y.models.map (·.1)).Nodup) :
    mapConsumer p (toSt n d) y = toSt (n + sizeC y) (d.app (deltaC p (n, y))) := by
  have h' : Within d 0 (n + 1) := h.mono (by omega) (by omega)
  have e0 : ({ toSt n d with next := (toSt n d).next + 1 } : St μ ι) = toSt (n + 1) d := rfl
  have hnext : (toSt n d).next = n := rfl
  unfold mapConsumer
  simp only
  rw [e0, hnext, registerModels_spec n y.models (n + 1) d h' (by omega) (by
    intro r hr e
    have := h.regs r hr; omega) hn]
  unfold deltaC
  by_cases hm : y.models = []
  · simp [hm, sizeC, reg, regsFrom, app_nil]
  · simp only [if_neg hm]
    rw [toSt_register]
    · simp [Delta.app, Delta.add, reg, sizeC, Nat.add_assoc]
    · intro kv hkv
      obtain ⟨k, e, x, y⟩ := h.nodes kv hkv
      rw [e]; intro c; injection c; omega

theorem foldl_spec {α : Type} (size : α → Nat) (step : St μ ι → α → St μ ι) (δ : Nat × α → Delta μ ι)
    (good : α → Prop)
    (hw : ∀ x, Within (δ x) x.1 (x.1 + size x.2))
    (hs : ∀ n d a, good a → Within d 0 n → step (toSt n d) a = toSt (n + size a) (d.app (δ (n, a))))
    (as : List α) (n : Nat) (d : Delta μ ι) (h : Within d 0 n) (hg : ∀ a ∈ as, good a) :
    as.foldl step (toSt n d) = toSt (n + total size as) (d.app (concat ((lay size n as).map δ))) := by
  induction as generalizing n d with
  | nil => simp [total, lay, concat_nil, app_nil]
  | cons a as ih =>
    rw [List.foldl_cons, hs n d a (hg a (by simp)) h, ih]
    · simp [lay, total, concat_cons, app_assoc, Nat.add_assoc]
    · exact within_app h (hw (n, a)) (by omega) (by simp)
    · exact fun b hb => hg b (List.mem_cons_of_mem _ hb)

theorem fresh_of_within {a b : Delta μ ι} {n hi : Nat} (ha : Within a 0 n) (hb : Within b (n + 1) hi) :
    ∀ kv ∈ (a.app b).nodes, kv.1 ≠ .uuid n := by
  intro kv hkv
  rcases List.mem_append.mp hkv with h | h
  · obtain ⟨k, e, x, y⟩ := ha.nodes kv h
    rw [e]; intro c; injection c; omega
  · obtain ⟨k, e, x, y⟩ := hb.nodes kv h
    rw [e]; intro c; injection c; omega

theorem mapGenset_spec (p n : Nat) (d : Delta μ ι) (y : YGenset μ ι) (h : Within d 0 n)
    (hn : ∀ c ∈ y.consumers, (c.models.map (·.1)).Nodup) :
    mapGenset p (toSt n d) y = toSt (n + sizeG y) (d.app (deltaG p (n, y))) := by
  have h' : Within d 0 (n + 1) := h.mono (by omega) (by omega)
  have e0 : ({ toSt n d with next := (toSt n d).next + 1 } : St μ ι) = toSt (n + 1) d := rfl
  have hnext : (toSt n d).next = n := rfl
  unfold mapGenset
  simp only
  rw [e0, hnext, foldl_spec sizeC (mapConsumer n) (deltaC n) (fun c => (c.models.map (·.1)).Nodup)
    (fun x => within_C _ x) (fun m e a ha hw => mapConsumer_spec n m e a hw ha) y.consumers (n + 1) d h' hn]
  rw [toSt_register]
  · simp [deltaG, app_add, sizeG, Nat.add_assoc]
  · exact fresh_of_within h (within_concat sizeC (deltaC n) (n + 1) y.consumers (fun x _ => within_C _ x))

theorem mapEmitter_spec (p n : Nat) (d : Delta μ ι) (y : String) (h : Within d 0 n) :
    mapEmitter p (toSt n d) y = toSt (n + sizeE y) (d.app (deltaE p (n, y))) := by
  have e0 : ({ toSt n d with next := (toSt n d).next + 1 } : St μ ι) = toSt (n + 1) d := rfl
  have hnext : (toSt n d).next = n := rfl
  unfold mapEmitter
  rw [e0, hnext, toSt_register]
  · simp [deltaE, app_add, app_nil, sizeE]
  · intro kv hkv
    obtain ⟨k, e, x, y⟩ := h.nodes kv hkv
    rw [e]; intro c; injection c; omega

theorem mapInstallation_spec (p n : Nat) (d : Delta μ ι) (y : YInstallation μ ι) (h : Within d 0 n)
    (hn : ∀ c ∈ y.gensets.flatMap (·.consumers) ++ y.consumers, (c.models.map (·.1)).Nodup) :
    mapInstallation p (toSt n d) y = toSt (n + sizeI y) (d.app (deltaI p (n, y))) := by
  have h' : Within d 0 (n + 1) := h.mono (by omega) (by omega)
  have e0 : ({ toSt n d with next := (toSt n d).next + 1 } : St μ ι) = toSt (n + 1) d := rfl
  have hnext : (toSt n d).next = n := rfl
  have w1 := within_concat (μ := μ) (ι := ι) sizeG (deltaG n) (n + 1) y.gensets (fun y _ => within_G _ y)
  have w2 := within_concat (μ := μ) (ι := ι) sizeC (deltaC n) (n + 1 + total sizeG y.gensets) y.consumers
    (fun y _ => within_C _ y)
  have w3 := within_concat (μ := μ) (ι := ι) sizeE (deltaE n)
    (n + 1 + total sizeG y.gensets + total sizeC y.consumers) y.emitters (fun y _ => within_E _ y)
  have w12 := within_app w1 w2 (by omega) (by omega)
  have w123 := within_app w12 w3 (by omega) (by omega)
  unfold mapInstallation
  simp only
  rw [e0, hnext, foldl_spec sizeG (mapGenset n) (deltaG n) (fun g => ∀ c ∈ g.consumers, (c.models.map (·.1)).Nodup)
    (fun x => within_G _ x) (fun m e a ha hw => mapGenset_spec n m e a hw ha) y.gensets (n + 1) d h'
    (fun g hg c hc => hn c (List.mem_append_left _ (List.mem_flatMap.mpr ⟨g, hg, hc⟩)))]
  rw [foldl_spec sizeC (mapConsumer n) (deltaC n) (fun c => (c.models.map (·.1)).Nodup)
    (fun x => within_C _ x) (fun m e a ha hw => mapConsumer_spec n m e a hw ha) y.consumers _ _
    (within_app h' w1 (by omega) (by omega)) (fun c hc => hn c (List.mem_append_right _ hc))]
  rw [foldl_spec sizeE (mapEmitter n) (deltaE n) (fun _ => True)
    (fun x => within_E _ x) (fun m e a ha hw => mapEmitter_spec n m e a hw) y.emitters _ _
    (within_app (within_app h' w1 (by omega) (by omega)) w2 (by omega) (by omega)) (by simp)]
  rw [toSt_register]
  · simp [deltaI, app_add, app_assoc, sizeI, Nat.add_assoc]
  · have := fresh_of_within h w123
    rw [app_assoc, app_assoc]
    rw [app_assoc] at this
    exact this

/-- Everything added for a file, but for the asset. -/
def deltaF (file : List (YInstallation μ ι)) : Delta μ ι :=
  concat ((lay sizeI 1 file).map (deltaI 0))

theorem mapFile_spec (file : List (YInstallation μ ι))
    (hn : ∀ c ∈ consumersOf file, (c.models.map (·.1)).Nodup) :
    mapFile file = toSt (1 + total sizeI file)
      ⟨(deltaF file).nodes ++ [(.uuid 0, .asset)], (deltaF file).edges, (deltaF file).regs⟩ := by
  have e0 : (⟨1, ⟨[], []⟩, [], [], [], [], []⟩ : St μ ι) = toSt 1 Delta.nil := rfl
  unfold mapFile
  simp only
  rw [e0, foldl_spec sizeI (mapInstallation 0) (deltaI 0)
    (fun y => ∀ c ∈ y.gensets.flatMap (·.consumers) ++ y.consumers, (c.models.map (·.1)).Nodup)
    (fun x => within_I _ x) (fun m e a ha hw => mapInstallation_spec 0 m e a hw ha) file 1 _ (within_nil _ _)
    (fun y hy c hc => hn c (List.mem_flatMap.mpr ⟨y, hy, hc⟩))]
  have w := within_concat (μ := μ) (ι := ι) sizeI (deltaI 0) 1 file (fun y _ => within_I _ y)
  have hfresh : ∀ kv ∈ (concat ((lay sizeI 1 file).map (deltaI 0))).nodes, kv.1 ≠ .uuid 0 := by
    intro kv hkv
    obtain ⟨k, e, x, y⟩ := w.nodes kv hkv
    rw [e]; intro c; injection c; omega
  simp [St.register, toSt, Builder.register, deltaF, Delta.app, Delta.nil, dictSet_new _ _ _ hfresh]

/-! ## The graph of the file -/

theorem build_nodes_ok {β : Type} (kvs : List (NodeID × β)) (g : Graph β)
    (hg : g.graph.nodes = g.nodes.map (·.1)) (hn : ((g.nodes ++ kvs).map (·.1)).Nodup) :
    kvs.foldl (fun g kv => g.addNode kv.1 kv.2) g =
      ⟨⟨g.graph.nodes ++ kvs.map (·.1), g.graph.edges⟩, g.nodes ++ kvs⟩ := by
  induction kvs generalizing g with
  | nil => simp
  | cons kv kvs ih =>
    have hf : kv.1 ∉ g.nodes.map (·.1) := by
      rw [List.map_append, List.nodup_append] at hn
      intro hm
      exact hn.2.2 _ hm _ (by simp) rfl
    have e : g.addNode kv.1 kv.2 = ⟨⟨g.graph.nodes ++ [kv.1], g.graph.edges⟩, g.nodes ++ [kv]⟩ := by
      unfold Graph.addNode Digraph.addNode
      rw [if_neg (by rw [hg]; exact hf), dictSet_new]
      intro kv' h' e
      exact hf (List.mem_map.mpr ⟨kv', h', e⟩)
    rw [List.foldl_cons, e, ih]
    · simp
    · simp [hg]
    · simpa using hn

theorem build_edges_ok {β : Type} (es : List (NodeID × NodeID)) (g : Graph β)
    (hg : g.graph.nodes = g.nodes.map (·.1)) (hk : ∀ e ∈ es, e.1 ∈ g.graph.nodes ∧ e.2 ∈ g.graph.nodes)
    (hn : (g.graph.edges ++ es).Nodup) :
    es.foldlM (fun g e => Graph.addEdge g e.1 e.2) g =
      (.ok ⟨⟨g.graph.nodes, g.graph.edges ++ es⟩, g.nodes⟩ : Except Err (Graph β)) := by
  induction es generalizing g with
  | nil => simp; rfl
  | cons e es ih =>
    have h1 := hk e (by simp)
    have hf : e ∉ g.graph.edges := by
      rw [List.nodup_append] at hn
      intro hm
      exact hn.2.2 _ hm _ (by simp) rfl
    have ea : g.addEdge e.1 e.2 = .ok ⟨⟨g.graph.nodes, g.graph.edges ++ [e]⟩, g.nodes⟩ := by
      unfold Graph.addEdge
      rw [if_neg (by rw [← hg]; push Not; exact h1)]
      unfold Digraph.addEdge Digraph.addNode
      simp [h1.1, h1.2, hf]
    rw [List.foldlM_cons, ea]
    refine (ih _ ?_ ?_ ?_).trans ?_
    · exact hg
    · exact fun e' h' => hk e' (List.mem_cons_of_mem _ h')
    · simpa using hn
    · simp

theorem build_ok {β : Type} (nodes : List (NodeID × β)) (edges : List (NodeID × NodeID))
    (hn : (nodes.map (·.1)).Nodup) (he : edges.Nodup)
    (hk : ∀ e ∈ edges, e.1 ∈ nodes.map (·.1) ∧ e.2 ∈ nodes.map (·.1)) :
    (Builder.mk nodes edges).build = .ok ⟨⟨nodes.map (·.1), edges⟩, nodes⟩ := by
  unfold Builder.build
  simp only
  rw [build_nodes_ok nodes Graph.empty rfl (by simpa [Graph.empty] using hn)]
  simp only [Graph.empty, Digraph.empty, List.nil_append]
  rw [build_edges_ok edges _ rfl hk (by simpa using he)]
  simp

/-- Every component but those at the top has one edge, from a component of the part or from the parent. -/
def Tied (d : Delta μ ι) (p : Nat) : Prop :=
  d.edges.map (·.2) = d.nodes.map (·.1) ∧ ∀ e ∈ d.edges, e.1 = .uuid p ∨ e.1 ∈ d.nodes.map (·.1)

theorem tied_nil (p : Nat) : Tied (Delta.nil : Delta μ ι) p := ⟨rfl, by simp [Delta.nil]⟩

theorem tied_app {a b : Delta μ ι} {p : Nat} (ha : Tied a p) (hb : Tied b p) : Tied (a.app b) p := by
  refine ⟨by simp [Delta.app, ha.1, hb.1], ?_⟩
  intro e he
  simp only [Delta.app, List.map_append, List.mem_append]
  rcases List.mem_append.mp he with h | h
  · rcases ha.2 e h with h | h
    · exact .inl h
    · exact .inr (.inl h)
  · rcases hb.2 e h with h | h
    · exact .inl h
    · exact .inr (.inr h)

theorem tied_concat {p : Nat} (ds : List (Delta μ ι)) (h : ∀ d ∈ ds, Tied d p) : Tied (concat ds) p := by
  induction ds with
  | nil => exact tied_nil _
  | cons d ds ih =>
    rw [concat_cons]
    exact tied_app (h d (by simp)) (ih (fun e he => h e (List.mem_cons_of_mem _ he)))

theorem tied_add {d : Delta μ ι} {n : Nat} (h : Tied d n) (p : Nat) (c : Comp μ ι) : Tied (d.add p n c) p := by
  refine ⟨by simp [Delta.add, h.1], ?_⟩
  intro e he
  simp only [Delta.add, List.map_append, List.mem_append]
  rcases List.mem_append.mp he with h' | h'
  · rcases h.2 e h' with h' | h'
    · exact .inr (.inr (by simp [h']))
    · exact .inr (.inl h')
  · simp at h'; subst h'; exact .inl rfl

theorem tied_C (p : Nat) (x : Nat × YConsumer μ ι) : Tied (deltaC p x) p := by
  unfold deltaC
  by_cases h : x.2.models = []
  · rw [if_pos h]; exact tied_nil _
  · rw [if_neg h]; exact ⟨rfl, by simp⟩

theorem tied_G (p : Nat) (x : Nat × YGenset μ ι) : Tied (deltaG p x) p := by
  unfold deltaG
  refine tied_add (tied_concat _ ?_) _ _
  intro d hd
  obtain ⟨c, -, rfl⟩ := List.mem_map.mp hd
  exact tied_C _ _

theorem tied_E (p : Nat) (x : Nat × String) : Tied (deltaE p x : Delta μ ι) p := by
  unfold deltaE
  exact tied_add (tied_nil _) _ _

theorem tied_I (p : Nat) (x : Nat × YInstallation μ ι) : Tied (deltaI p x) p := by
  unfold deltaI
  refine tied_add (tied_app (tied_app (tied_concat _ ?_) (tied_concat _ ?_)) (tied_concat _ ?_)) _ _
  all_goals
    intro d hd
    obtain ⟨c, -, rfl⟩ := List.mem_map.mp hd
  · exact tied_G _ _
  · exact tied_C _ _
  · exact tied_E _ _

/-- The children of a component in a part. -/
def out (d : Delta μ ι) (k : Nat) : List NodeID := (d.edges.filter fun e => decide (e.1 = .uuid k)).map (·.2)

theorem out_app (a b : Delta μ ι) (k : Nat) : out (a.app b) k = out a k ++ out b k := by
  simp [out, Delta.app]

theorem out_outside {d : Delta μ ι} {p lo hi k : Nat} (ht : Tied d p) (hw : Within d lo hi) (hp : k ≠ p)
    (hk : k < lo ∨ hi ≤ k) : out d k = [] := by
  unfold out
  rw [List.map_eq_nil_iff, List.filter_eq_nil_iff]
  intro e he
  rcases ht.2 e he with h | h
  · rw [h]; simp; omega
  · obtain ⟨kv, hkv, e'⟩ := List.mem_map.mp h
    obtain ⟨j, ej, h1, h2⟩ := hw.nodes kv hkv
    rw [← e', ej]; simp; omega

theorem out_concat {α : Type} (size : α → Nat) (δ : Nat × α → Delta μ ι) (p lo : Nat) (as : List α)
    (ht : ∀ x, Tied (δ x) p) (hw : ∀ x, Within (δ x) x.1 (x.1 + size x.2)) (x : Nat × α) (hx : x ∈ lay size lo as)
    (k : Nat) (hp : k ≠ p) (h1 : x.1 ≤ k) (h2 : k < x.1 + size x.2) :
    out (concat ((lay size lo as).map δ)) k = out (δ x) k := by
  induction as generalizing lo with
  | nil => simp [lay] at hx
  | cons a as ih =>
    simp only [lay, List.map_cons, concat_cons, out_app]
    rcases List.mem_cons.mp hx with rfl | hx
    · rw [out_outside (lo := lo + size a) (hi := lo + size a + total size as) (tied_concat (p := p) _ ?_)
        (within_concat size δ _ as (fun y _ => hw y)) hp (.inl h2), List.append_nil]
      intro d hd
      obtain ⟨c, -, rfl⟩ := List.mem_map.mp hd
      exact ht c
    · have := mem_lay (a := x.2) (k := x.1) hx
      rw [ih _ hx, out_outside (ht (lo, a)) (hw (lo, a)) hp (.inr (by simp only; omega)), List.nil_append]

/-- The ids of the consumers of a generator set that are in the model. -/
def kept (x : Nat × YGenset μ ι) : List NodeID :=
  (lay sizeC (x.1 + 1) x.2.consumers).flatMap fun c => if c.2.models = [] then [] else [.uuid c.1]

theorem out_deltaG (p : Nat) (x : Nat × YGenset μ ι) (hp : x.1 ≠ p) : out (deltaG p x) x.1 = kept x := by
  have key : ∀ L : List (Nat × YConsumer μ ι), out (concat (L.map (deltaC x.1))) x.1 =
      L.flatMap fun c => if c.2.models = [] then [] else [.uuid c.1] := by
    intro L
    induction L with
    | nil => rfl
    | cons c L ih =>
      rw [List.map_cons, concat_cons, out_app, ih, List.flatMap_cons]
      congr 1
      unfold deltaC out
      by_cases h : c.2.models = []
      · simp [h, Delta.nil]
      · simp [h]
  unfold deltaG kept
  rw [← key]
  unfold Delta.add out
  have : ¬ p = x.1 := fun e => hp e.symm
  simp [this]

theorem out_add (d : Delta μ ι) (p n k : Nat) (c : Comp μ ι) (h : k ≠ p) : out (d.add p n c) k = out d k := by
  have : ¬ p = k := fun e => h e.symm
  simp [out, Delta.add, this]

theorem tied_map {α : Type} {p : Nat} (δ : α → Delta μ ι) (h : ∀ x, Tied (δ x) p) (L : List α) :
    Tied (concat (L.map δ)) p := by
  refine tied_concat _ ?_
  intro d hd
  obtain ⟨c, -, rfl⟩ := List.mem_map.mp hd
  exact h c

theorem out_deltaI (p : Nat) (z : Nat × YInstallation μ ι) (hp : p < z.1) (x : Nat × YGenset μ ι)
    (hx : x ∈ lay sizeG (z.1 + 1) z.2.gensets) : out (deltaI p z) x.1 = kept x := by
  have hb := mem_lay (k := x.1) (a := x.2) hx
  have hs : 0 < sizeG x.2 := by simp only [sizeG]; omega
  unfold deltaI
  rw [out_add _ _ _ _ _ (by omega), out_app, out_app]
  rw [out_concat sizeG (deltaG z.1) z.1 (z.1 + 1) z.2.gensets (fun y => tied_G _ y) (fun y => within_G _ y) x hx x.1
    (by omega) (by omega) (by omega)]
  rw [out_deltaG z.1 x (by omega)]
  rw [out_outside (tied_map _ (fun y => tied_C _ y) _)
    (within_concat sizeC (deltaC z.1) _ z.2.consumers (fun y _ => within_C _ y)) (by omega) (.inl (by omega))]
  rw [out_outside (tied_map _ (fun y => tied_E _ y) _)
    (within_concat sizeE (deltaE z.1) _ z.2.emitters (fun y _ => within_E _ y)) (by omega) (.inl (by omega))]
  simp

theorem out_deltaF (file : List (YInstallation μ ι)) (z : Nat × YInstallation μ ι) (hz : z ∈ lay sizeI 1 file)
    (x : Nat × YGenset μ ι) (hx : x ∈ lay sizeG (z.1 + 1) z.2.gensets) : out (deltaF file) x.1 = kept x := by
  have hb := mem_lay (k := x.1) (a := x.2) hx
  have hz' := mem_lay (k := z.1) (a := z.2) hz
  have hs : 0 < sizeG x.2 := by simp only [sizeG]; omega
  unfold deltaF
  rw [out_concat sizeI (deltaI 0) 0 1 file (fun y => tied_I _ y) (fun y => within_I _ y) z hz x.1
    (by omega) (by omega) (by simp only [sizeI]; omega)]
  exact out_deltaI 0 z (by omega) x hx

/-- All nodes of the model of a file. -/
def allNodes (file : List (YInstallation μ ι)) : List (NodeID × Comp μ ι) := (deltaF file).nodes ++ [(.uuid 0, .asset)]

theorem within_F (file : List (YInstallation μ ι)) : Within (deltaF file) 1 (1 + total sizeI file) :=
  within_concat sizeI (deltaI 0) 1 file (fun y _ => within_I _ y)

theorem tied_F (file : List (YInstallation μ ι)) : Tied (deltaF file) 0 := tied_map _ (fun y => tied_I _ y) _

theorem allNodes_nodup (file : List (YInstallation μ ι)) : ((allNodes file).map (·.1)).Nodup := by
  unfold allNodes
  rw [List.map_append, List.nodup_append]
  refine ⟨(within_F file).nodupNodes, by simp, ?_⟩
  intro a ha b hb
  obtain ⟨kv, h, rfl⟩ := List.mem_map.mp ha
  simp at hb; subst hb
  obtain ⟨k, e, h1, h2⟩ := (within_F file).nodes kv h
  rw [e]; intro c; injection c; omega

/-- The energy model of a file. -/
def graphOf (file : List (YInstallation μ ι)) : Graph (Comp μ ι) :=
  ⟨⟨(allNodes file).map (·.1), (deltaF file).edges⟩, allNodes file⟩

theorem build_file (file : List (YInstallation μ ι)) :
    (Builder.mk (allNodes file) (deltaF file).edges).build = .ok (graphOf file) := by
  have ht := tied_F file
  refine build_ok _ _ (allNodes_nodup file) ?_ ?_
  · have := (within_F file).nodupNodes
    rw [← ht.1] at this
    exact List.Nodup.of_map _ this
  · intro e he
    simp only [allNodes, List.map_append, List.mem_append]
    refine ⟨?_, .inl ?_⟩
    · rcases ht.2 e he with h | h
      · exact .inr (by simp [h])
      · exact .inl h
    · rw [← ht.1]; exact List.mem_map.mpr ⟨e, he, rfl⟩

theorem lookup_of_mem {κ α : Type} [BEq κ] [LawfulBEq κ] (l : List (κ × α)) (hn : (l.map (·.1)).Nodup) (kv : κ × α)
    (h : kv ∈ l) : l.lookup kv.1 = some kv.2 := by
  induction l with
  | nil => simp at h
  | cons a l ih =>
    obtain ⟨k, v⟩ := a
    simp only [List.map_cons, List.nodup_cons] at hn
    rcases List.mem_cons.mp h with rfl | h
    · simp [List.lookup]
    · have : kv.1 ≠ k := fun e => hn.1 (e ▸ List.mem_map.mpr ⟨kv, h, rfl⟩)
      have hb : (kv.1 == k) = false := by simpa using this
      simp [List.lookup, hb, ih hn.2 h]

theorem lookup_none {κ α : Type} [BEq κ] [LawfulBEq κ] (l : List (κ × α)) (k : κ) (h : ∀ kv ∈ l, kv.1 ≠ k) :
    l.lookup k = none := by
  induction l with
  | nil => rfl
  | cons a l ih =>
    have : ¬ k = a.1 := fun e => h a (by simp) e.symm
    have hb : (k == a.1) = false := by simpa using this
    obtain ⟨a1, a2⟩ := a
    simp only at hb
    simp [List.lookup, hb, ih (fun kv hkv => h kv (List.mem_cons_of_mem _ hkv))]

theorem getNode_of_mem (file : List (YInstallation μ ι)) (kv : NodeID × Comp μ ι) (h : kv ∈ allNodes file) :
    (graphOf file).getNode kv.1 = .ok kv.2 := by
  unfold Graph.getNode graphOf
  simp only
  rw [lookup_of_mem _ (allNodes_nodup file) kv h]

theorem getSuccessors_genset (file : List (YInstallation μ ι)) (z : Nat × YInstallation μ ι)
    (hz : z ∈ lay sizeI 1 file) (x : Nat × YGenset μ ι) (hx : x ∈ lay sizeG (z.1 + 1) z.2.gensets)
    (hm : (NodeID.uuid x.1, Comp.genset x.2) ∈ allNodes file) :
    (graphOf file).getSuccessors (.uuid x.1) false = .ok (kept x) := by
  unfold Graph.getSuccessors
  rw [if_neg (by
    simp only [not_not, graphOf]
    exact List.mem_map.mpr ⟨_, hm, rfl⟩)]
  simp only [Bool.false_eq_true, if_false]
  have := out_deltaF file z hz x hx
  simpa [graphOf, Digraph.succs, out] using this

/-! ## The results of the models -/

/-- All consumers of a file with their ids. -/
def allC (file : List (YInstallation μ ι)) : List (Nat × YConsumer μ ι) :=
  (lay sizeI 1 file).flatMap fun z =>
    (lay sizeG (z.1 + 1) z.2.gensets).flatMap (fun g => lay sizeC (g.1 + 1) g.2.consumers) ++
      lay sizeC (z.1 + 1 + total sizeG z.2.gensets) z.2.consumers

def regsC (c : Nat × YConsumer μ ι) : List (Reg μ ι) := regsFrom c.1 (c.1 + 1) (reg c.2)

theorem deltaC_regs (p : Nat) (c : Nat × YConsumer μ ι) : (deltaC p c).regs = regsC c := by
  unfold deltaC regsC
  by_cases h : c.2.models = []
  · simp [h, Delta.nil, reg, regsFrom]
  · simp [h]

theorem concat_regs {α : Type} (δ : α → Delta μ ι) (L : List α) :
    (concat (L.map δ)).regs = L.flatMap fun x => (δ x).regs := by
  simp [concat, List.flatMap_map]

theorem deltaG_regs (p : Nat) (x : Nat × YGenset μ ι) :
    (deltaG p x).regs = (lay sizeC (x.1 + 1) x.2.consumers).flatMap regsC := by
  simp only [deltaG, Delta.add, concat_regs, deltaC_regs]

theorem deltaE_regs (p : Nat) (x : Nat × String) : (deltaE p x : Delta μ ι).regs = [] := rfl

theorem deltaI_regs (p : Nat) (z : Nat × YInstallation μ ι) :
    (deltaI p z).regs = ((lay sizeG (z.1 + 1) z.2.gensets).flatMap (fun g => lay sizeC (g.1 + 1) g.2.consumers) ++
      lay sizeC (z.1 + 1 + total sizeG z.2.gensets) z.2.consumers).flatMap regsC := by
  simp only [deltaI, Delta.add, Delta.app, concat_regs, deltaC_regs, deltaG_regs, deltaE_regs]
  simp [List.flatMap_assoc]

theorem deltaF_regs (file : List (YInstallation μ ι)) : (deltaF file).regs = (allC file).flatMap regsC := by
  simp only [deltaF, concat_regs, deltaI_regs, allC, List.flatMap_assoc]

theorem allC_snd (file : List (YInstallation μ ι)) : (allC file).map (·.2) = consumersOf file := by
  have h1 : ∀ (L : List (Nat × YGenset μ ι)),
      (L.flatMap (fun g => lay sizeC (g.1 + 1) g.2.consumers)).map (·.2) = (L.map (·.2)).flatMap (·.consumers) := by
    intro L
    induction L with
    | nil => rfl
    | cons g L ih => simp [List.flatMap_cons, lay_map_snd, ih]
  have h2 : ∀ (L : List (Nat × YInstallation μ ι)),
      (L.flatMap fun z =>
        (lay sizeG (z.1 + 1) z.2.gensets).flatMap (fun g => lay sizeC (g.1 + 1) g.2.consumers) ++
          lay sizeC (z.1 + 1 + total sizeG z.2.gensets) z.2.consumers).map (·.2) =
      (L.map (·.2)).flatMap fun i => i.gensets.flatMap (·.consumers) ++ i.consumers := by
    intro L
    induction L with
    | nil => rfl
    | cons z L ih =>
      rw [List.flatMap_cons, List.map_append, ih, List.map_append, h1, lay_map_snd, lay_map_snd]
      rfl
  unfold allC consumersOf
  rw [h2, lay_map_snd]

theorem allC_sorted (file : List (YInstallation μ ι)) : (allC file).Pairwise (fun a b => a.1 < b.1) := by
  have hlt : ∀ {n : Nat} {l : List (YConsumer μ ι)}, (lay sizeC n l).Pairwise (fun a b => a.1 < b.1) := by
    intro n l
    refine (lay_pairwise sizeC n l).imp ?_
    intro a b h
    simp only [sizeC] at h; omega
  have hg : ∀ (z : Nat × YInstallation μ ι), ∀ c ∈ (lay sizeG (z.1 + 1) z.2.gensets).flatMap
      (fun g => lay sizeC (g.1 + 1) g.2.consumers), z.1 < c.1 ∧ c.1 < z.1 + 1 + total sizeG z.2.gensets := by
    intro z c hc
    obtain ⟨g, hg, hc⟩ := List.mem_flatMap.mp hc
    have h1 := mem_lay (k := g.1) (a := g.2) hg
    have h2 := mem_lay (k := c.1) (a := c.2) hc
    simp only [sizeG, sizeC] at h1 h2 ⊢
    omega
  unfold allC
  rw [List.pairwise_flatMap]
  refine ⟨?_, ?_⟩
  · intro z hz
    rw [List.pairwise_append]
    refine ⟨?_, hlt, ?_⟩
    · rw [List.pairwise_flatMap]
      refine ⟨fun g _ => hlt, ?_⟩
      refine (lay_pairwise sizeG _ _).imp ?_
      intro a b hab c hc d hd
      have h1 := mem_lay (k := c.1) (a := c.2) hc
      have h2 := mem_lay (k := d.1) (a := d.2) hd
      simp only [sizeG, sizeC] at h1 h2 hab
      omega
    · intro c hc d hd
      have h1 := hg z c hc
      have h2 := mem_lay (k := d.1) (a := d.2) hd
      omega
  · refine (lay_pairwise sizeI _ _).imp ?_
    intro a b hab c hc d hd
    have h1 : c.1 < a.1 + sizeI a.2 := by
      rcases List.mem_append.mp hc with h | h
      · have := hg a c h
        simp only [sizeI]; omega
      · have := mem_lay (k := c.1) (a := c.2) h
        simp only [sizeI, sizeC] at this ⊢; omega
    have h2 : b.1 < d.1 := by
      rcases List.mem_append.mp hd with h | h
      · exact (hg b d h).1
      · have := mem_lay (k := d.1) (a := d.2) h
        omega
    omega

/-- The result of evaluating a registered model. -/
def resOf (f : μ → ι → ρ) (r : Reg μ ι) : ρ := f r.y.model r.y.input

theorem evaluateModels_ok (ev : Eval μ ι ρ R) (f : μ → ι → ρ) (inputs : List (Nat × ι)) (rs : List (Reg μ ι))
    (hi : ∀ r ∈ rs, inputs.lookup r.mid = some r.y.input)
    (hf : ∀ r ∈ rs, ev.model r.y.model r.y.input = .ok (f r.y.model r.y.input)) :
    evaluateModels ev inputs (rs.map (fun r => (r.mid, r.y.model))) = .ok (rs.map (fun r => (r.mid, resOf f r))) := by
  induction rs with
  | nil => rfl
  | cons r rs ih =>
    simp only [List.map_cons, evaluateModels]
    rw [hi r (by simp)]
    simp only
    rw [hf r (by simp)]
    simp only
    rw [ih (fun q hq => hi q (List.mem_cons_of_mem _ hq)) (fun q hq => hf q (List.mem_cons_of_mem _ hq))]
    rfl

theorem evaluateModels_error (ev : Eval μ ι ρ R) (inputs : List (Nat × ι)) (rs : List (Reg μ ι))
    (hi : ∀ r ∈ rs, inputs.lookup r.mid = some r.y.input) (e : Err)
    (h : evaluateModels ev inputs (rs.map (fun r => (r.mid, r.y.model))) = .error e) :
    ∃ r ∈ rs, ev.model r.y.model r.y.input = .error e := by
  induction rs with
  | nil => simp [evaluateModels] at h
  | cons r rs ih =>
    simp only [List.map_cons, evaluateModels] at h
    rw [hi r (by simp)] at h
    simp only at h
    cases hm : ev.model r.y.model r.y.input with
    | error e' =>
      rw [hm] at h
      simp only at h
      cases Except.error.inj h
      exact ⟨r, by simp, hm⟩
    | ok v =>
      rw [hm] at h
      simp only at h
      cases hr : evaluateModels ev inputs (rs.map (fun r => (r.mid, r.y.model))) with
      | ok vs => rw [hr] at h; simp at h
      | error e' =>
        rw [hr] at h
        simp only at h
        cases Except.error.inj h
        obtain ⟨q, hq, h'⟩ := ih (fun q hq => hi q (List.mem_cons_of_mem _ hq)) hr
        exact ⟨q, List.mem_cons_of_mem _ hq, h'⟩

theorem evaluateModels_fails (ev : Eval μ ι ρ R) (inputs : List (Nat × ι)) (rs : List (Reg μ ι))
    (h : ∃ r ∈ rs, ∃ e, inputs.lookup r.mid = some r.y.input ∧ ev.model r.y.model r.y.input = .error e) :
    ∃ e, evaluateModels ev inputs (rs.map (fun r => (r.mid, r.y.model))) = .error e := by
  induction rs with
  | nil => obtain ⟨r, hr, -⟩ := h; simp at hr
  | cons r rs ih =>
    simp only [List.map_cons, evaluateModels]
    cases hl : inputs.lookup r.mid with
    | none => exact ⟨_, rfl⟩
    | some i =>
      simp only
      cases hm : ev.model r.y.model i with
      | error e' => exact ⟨e', rfl⟩
      | ok v =>
        simp only
        obtain ⟨q, hq, e, h1, h2⟩ := h
        rcases List.mem_cons.mp hq with rfl | hq
        · rw [hl] at h1; cases Option.some.inj h1; rw [hm] at h2; cases h2
        · obtain ⟨e', he'⟩ := ih ⟨q, hq, e, h1, h2⟩
          rw [he']
          exact ⟨e', rfl⟩

theorem lookup_dictSet' {α : Type} (k x : Nat) (v : α) (l : List (Nat × α)) :
    (dictSet k v l).lookup x = if x = k then some v else l.lookup x := by
  induction l with
  | nil =>
    by_cases h : x = k
    · simp [dictSet, h]
    · have hb : (x == k) = false := by simp [h]
      simp [dictSet, List.lookup, hb, h]
  | cons p l ih =>
    obtain ⟨k', v'⟩ := p
    by_cases hk : k' = k
    · subst hk
      by_cases h : x = k'
      · simp [dictSet, h]
      · have hb : (x == k') = false := by simp [h]
        simp [dictSet, List.lookup, hb, h]
    · simp only [dictSet, hk, if_false]
      by_cases h : x = k'
      · subst h; simp [List.lookup, hk]
      · have hb : (x == k') = false := by simp [h]
        simp only [List.lookup, hb, ih]

theorem lookup_merge {α : Type} (a b : List (Nat × α)) (hb : (b.map (·.1)).Nodup) (x : Nat) :
    (merge a b).lookup x = (b.lookup x).or (a.lookup x) := by
  unfold merge
  induction b generalizing a with
  | nil => simp
  | cons kv b ih =>
    obtain ⟨k, v⟩ := kv
    simp only [List.map_cons, List.nodup_cons] at hb
    rw [List.foldl_cons, ih _ hb.2, lookup_dictSet']
    by_cases h : x = k
    · subst h
      rw [lookup_none b x (fun kv hkv e => hb.1 (e ▸ List.mem_map.mpr ⟨kv, hkv, rfl⟩))]
      simp [List.lookup]
    · have hb' : (x == k) = false := by simp [h]
      simp [List.lookup, hb', h]

theorem lookup_filter {α : Type} (rs : List (Reg μ ι)) (hn : (rs.map (·.mid)).Nodup) (P : Reg μ ι → Bool)
    (g : Reg μ ι → α) (r : Reg μ ι) (hr : r ∈ rs) :
    ((rs.filter P).map (fun r => (r.mid, g r))).lookup r.mid = if P r then some (g r) else none := by
  have hn' : (((rs.filter P).map (fun r => (r.mid, g r))).map (·.1)).Nodup := by
    rw [List.map_map]
    exact hn.sublist ((List.filter_sublist (l := rs) (p := P)).map _)
  by_cases hp : P r = true
  · rw [if_pos hp]
    exact lookup_of_mem _ hn' (r.mid, g r) (List.mem_map.mpr ⟨r, List.mem_filter.mpr ⟨hr, hp⟩, rfl⟩)
  · rw [if_neg hp]
    refine lookup_none _ _ ?_
    rintro kv hkv e
    obtain ⟨q, hq, rfl⟩ := List.mem_map.mp hkv
    have hq' := List.mem_filter.mp hq
    have : q = r := List.inj_on_of_nodup_map hn hq'.1 hr e
    exact hp (this ▸ hq'.2)

theorem collect_ok (all : List (Nat × ρ)) (inputs : List (Nat × ι)) (f : μ → ι → ρ) (rs : List (Reg μ ι))
    (h1 : ∀ r ∈ rs, all.lookup r.mid = some (resOf f r)) (h2 : ∀ r ∈ rs, inputs.lookup r.mid = some r.y.input)
    (d : List (Nat × List (ι × ρ))) :
    (rs.map (fun r => ((r.consumer, r.period), r.mid))).foldlM (collect all inputs) d =
      (.ok (rs.foldl (fun d r => appendAt r.consumer (r.y.input, resOf f r) d) d) :
        Except Err (List (Nat × List (ι × ρ)))) := by
  induction rs generalizing d with
  | nil => rfl
  | cons r rs ih =>
    rw [List.map_cons, List.foldlM_cons, List.foldl_cons]
    have : collect all inputs d ((r.consumer, r.period), r.mid) =
        .ok (appendAt r.consumer (r.y.input, resOf f r) d) := by
      unfold collect
      rw [h1 r (by simp)]
      simp only
      rw [h2 r (by simp)]
    rw [this]
    exact ih (fun q hq => h1 q (List.mem_cons_of_mem _ hq)) (fun q hq => h2 q (List.mem_cons_of_mem _ hq)) _

theorem dictSet_last {α : Type} (k : Nat) (v w : α) (d : List (Nat × α)) (h : ∀ kv ∈ d, kv.1 ≠ k) :
    dictSet k w (d ++ [(k, v)]) = d ++ [(k, w)] := by
  induction d with
  | nil => simp [dictSet]
  | cons a d ih =>
    obtain ⟨a1, a2⟩ := a
    have : a1 ≠ k := h (a1, a2) (by simp)
    simp [dictSet, this, ih (fun kv hkv => h kv (List.mem_cons_of_mem _ hkv))]

theorem lookup_last {α : Type} (k : Nat) (v : α) (d : List (Nat × α)) (h : ∀ kv ∈ d, kv.1 ≠ k) :
    (d ++ [(k, v)]).lookup k = some v := by
  induction d with
  | nil => simp
  | cons a d ih =>
    obtain ⟨a1, a2⟩ := a
    have : ¬ k = a1 := fun e => h (a1, a2) (by simp) e.symm
    have hb : (k == a1) = false := by simp [this]
    simp [List.lookup, hb, ih (fun kv hkv => h kv (List.mem_cons_of_mem _ hkv))]

theorem append_one (c n : Nat) (pms : List (Period × YModel μ ι)) (f : μ → ι → ρ) (d : List (Nat × List (ι × ρ)))
    (vs : List (ι × ρ)) (h : ∀ kv ∈ d, kv.1 ≠ c) :
    (regsFrom c n pms).foldl (fun d r => appendAt r.consumer (r.y.input, resOf f r) d) (d ++ [(c, vs)]) =
      d ++ [(c, vs ++ pms.map (fun pm => (pm.2.input, f pm.2.model pm.2.input)))] := by
  induction pms generalizing n vs with
  | nil => simp [regsFrom]
  | cons pm pms ih =>
    simp only [regsFrom, List.foldl_cons]
    have : appendAt c (pm.2.input, resOf f ⟨n, c, pm.1, pm.2⟩) (d ++ [(c, vs)]) =
        d ++ [(c, vs ++ [(pm.2.input, f pm.2.model pm.2.input)])] := by
      unfold appendAt
      rw [lookup_last c vs d h]
      simp only
      rw [dictSet_last c _ _ d h]
      rfl
    rw [this, ih]
    simp

/-- The entry of a consumer in the collected results. -/
def entry (f : μ → ι → ρ) (c : Nat × YConsumer μ ι) : List (Nat × List (ι × ρ)) :=
  if reg c.2 = [] then [] else [(c.1, (reg c.2).map (fun pm => (pm.2.input, f pm.2.model pm.2.input)))]

theorem append_consumer (c : Nat × YConsumer μ ι) (f : μ → ι → ρ) (d : List (Nat × List (ι × ρ)))
    (h : ∀ kv ∈ d, kv.1 ≠ c.1) :
    (regsC c).foldl (fun d r => appendAt r.consumer (r.y.input, resOf f r) d) d = d ++ entry f c := by
  unfold regsC entry
  cases hr : reg c.2 with
  | nil => simp [regsFrom]
  | cons pm pms =>
    simp only [regsFrom, List.foldl_cons, reduceCtorEq, if_false]
    have : appendAt c.1 (pm.2.input, resOf f ⟨c.1 + 1, c.1, pm.1, pm.2⟩) d =
        d ++ [(c.1, [(pm.2.input, f pm.2.model pm.2.input)])] := by
      unfold appendAt
      rw [lookup_none d c.1 h]
      simp only
      rw [dictSet_new _ _ _ h]
      rfl
    rw [this, append_one _ _ _ _ _ _ h]
    simp

theorem append_all (cs : List (Nat × YConsumer μ ι)) (f : μ → ι → ρ) (d : List (Nat × List (ι × ρ)))
    (hs : cs.Pairwise (fun a b => a.1 < b.1)) (h : ∀ kv ∈ d, ∀ c ∈ cs, kv.1 ≠ c.1) :
    (cs.flatMap regsC).foldl (fun d r => appendAt r.consumer (r.y.input, resOf f r) d) d = d ++ cs.flatMap (entry f) := by
  induction cs generalizing d with
  | nil => simp
  | cons c cs ih =>
    have hs' := List.pairwise_cons.mp hs
    rw [List.flatMap_cons, List.foldl_append, append_consumer c f d (fun kv hkv => h kv hkv c (by simp)), ih _ hs'.2]
    · simp [List.flatMap_cons]
    · intro kv hkv b hb
      rcases List.mem_append.mp hkv with hk | hk
      · exact h kv hk b (List.mem_cons_of_mem _ hb)
      · unfold entry at hk
        split at hk
        · simp at hk
        · simp at hk; subst hk
          have := hs'.1 b hb
          simp only; omega

/-- What a consumer gets from its models. -/
def fromEntry (ev : Eval μ ι ρ R) (f : μ → ι → ρ) (c : Nat × YConsumer μ ι) : List (Nat × R) :=
  if reg c.2 = [] then []
  else [(c.1, ev.combine c.2 ((reg c.2).map (fun pm => (pm.2.input, f pm.2.model pm.2.input))))]

theorem combineAll_ok (ev : Eval μ ι ρ R) (f : μ → ι → ρ) (nodes : List (NodeID × Comp μ ι))
    (cs : List (Nat × YConsumer μ ι))
    (h : ∀ c ∈ cs, c.2.models ≠ [] → nodes.lookup (.uuid c.1) = some (.consumer c.2)) :
    combineAll ev nodes (cs.flatMap (entry f)) = .ok (cs.flatMap (fromEntry ev f)) := by
  induction cs with
  | nil => rfl
  | cons c cs ih =>
    have ih' := ih (fun q hq => h q (List.mem_cons_of_mem _ hq))
    rw [List.flatMap_cons, List.flatMap_cons]
    unfold entry fromEntry at *
    by_cases hr : reg c.2 = []
    · rw [if_pos hr, if_pos hr]; exact ih'
    · rw [if_neg hr, if_neg hr]
      have hm : c.2.models ≠ [] := by
        intro e; apply hr; simp [reg, e]
      simp only [List.singleton_append, combineAll]
      rw [h c (by simp) hm]
      simp only
      rw [ih']

theorem lookup_from (ev : Eval μ ι ρ R) (f : μ → ι → ρ) (cs : List (Nat × YConsumer μ ι))
    (hs : cs.Pairwise (fun a b => a.1 < b.1)) (c : Nat × YConsumer μ ι) (hc : c ∈ cs) :
    (cs.flatMap (fromEntry ev f)).lookup c.1 =
      if reg c.2 = [] then none
      else some (ev.combine c.2 ((reg c.2).map (fun pm => (pm.2.input, f pm.2.model pm.2.input)))) := by
  induction cs with
  | nil => simp at hc
  | cons b cs ih =>
    have hs' := List.pairwise_cons.mp hs
    rw [List.flatMap_cons]
    rcases List.mem_cons.mp hc with rfl | hc
    · have hnone : (cs.flatMap (fromEntry ev f)).lookup c.1 = none := by
        refine lookup_none _ _ ?_
        intro kv hkv
        obtain ⟨b, hb, hkv⟩ := List.mem_flatMap.mp hkv
        have := hs'.1 b hb
        unfold fromEntry at hkv
        split at hkv
        · simp at hkv
        · simp at hkv; subst hkv; simp only; omega
      by_cases hr : reg c.2 = []
      · simp [fromEntry, hr, hnone]
      · simp [fromEntry, hr]
    · have hlt := hs'.1 c hc
      have hb : (c.1 == b.1) = false := by simp; omega
      by_cases hr : reg b.2 = []
      · simp only [fromEntry, hr, if_true, List.nil_append]
        exact ih hs'.2 hc
      · simp only [fromEntry, hr, if_false, List.singleton_append, List.lookup, hb]
        exact ih hs'.2 hc

theorem allNodes_lookup_consumer (file : List (YInstallation μ ι)) (c : Nat × YConsumer μ ι) (hc : c ∈ allC file)
    (hm : c.2.models ≠ []) : (NodeID.uuid c.1, Comp.consumer c.2) ∈ allNodes file := by
  have hC : ∀ p, (NodeID.uuid c.1, Comp.consumer c.2) ∈ (deltaC p c).nodes := by
    intro p; unfold deltaC; rw [if_neg hm]; simp
  obtain ⟨z, hz, hc⟩ := List.mem_flatMap.mp hc
  refine List.mem_append_left _ ?_
  simp only [deltaF, concat, List.mem_flatMap, List.mem_map, exists_exists_and_eq_and]
  refine ⟨z, hz, ?_⟩
  simp only [deltaI, Delta.add, Delta.app, List.mem_append]
  rcases List.mem_append.mp hc with hc | hc
  · obtain ⟨g, hg, hc⟩ := List.mem_flatMap.mp hc
    refine .inl (.inl (.inl ?_))
    simp only [concat, List.mem_flatMap, List.mem_map, exists_exists_and_eq_and]
    refine ⟨g, hg, ?_⟩
    simp only [deltaG, Delta.add, List.mem_append]
    refine .inl ?_
    simp only [concat, List.mem_flatMap, List.mem_map, exists_exists_and_eq_and]
    exact ⟨c, hc, hC _⟩
  · refine .inl (.inl (.inr ?_))
    simp only [concat, List.mem_flatMap, List.mem_map, exists_exists_and_eq_and]
    exact ⟨c, hc, hC _⟩

theorem allNodes_genset (file : List (YInstallation μ ι)) (z : Nat × YInstallation μ ι)
    (hz : z ∈ lay sizeI 1 file) (g : Nat × YGenset μ ι) (hg : g ∈ lay sizeG (z.1 + 1) z.2.gensets) :
    (NodeID.uuid g.1, Comp.genset g.2) ∈ allNodes file := by
  refine List.mem_append_left _ ?_
  simp only [deltaF, concat, List.mem_flatMap, List.mem_map, exists_exists_and_eq_and]
  refine ⟨z, hz, ?_⟩
  simp only [deltaI, Delta.add, Delta.app, List.mem_append]
  refine .inl (.inl (.inl ?_))
  simp only [concat, List.mem_flatMap, List.mem_map, exists_exists_and_eq_and]
  exact ⟨g, hg, by simp [deltaG, Delta.add]⟩

/-- What the models of all consumers give. -/
def fromAll (ev : Eval μ ι ρ R) (f : μ → ι → ρ) (file : List (YInstallation μ ι)) : List (Nat × R) :=
  (allC file).flatMap (fromEntry ev f)

theorem evaluate_unfold (ev : Eval μ ι ρ R) (f : μ → ι → ρ) (file : List (YInstallation μ ι))
    (hn : ∀ c ∈ consumersOf file, (c.models.map (·.1)).Nodup)
    (hf : ∀ r ∈ (deltaF file).regs, ev.model r.y.model r.y.input = .ok (f r.y.model r.y.input)) :
    evaluate ev (mapFile file) =
      ((allNodes file).map (·.1)).foldlM (evalStep ev (graphOf file) (fromAll ev f file)) [] := by
  rw [mapFile_spec file hn]
  have hmids := (within_F file).nodupMids
  have hin : ∀ r ∈ (deltaF file).regs,
      ((deltaF file).regs.map (fun r => (r.mid, r.y.input))).lookup r.mid = some r.y.input := by
    intro r hr
    refine lookup_of_mem _ ?_ (r.mid, r.y.input) (List.mem_map.mpr ⟨r, hr, rfl⟩)
    rw [List.map_map]
    exact hmids
  have hev : ∀ P : Reg μ ι → Bool, evaluateModels ev ((deltaF file).regs.map (fun r => (r.mid, r.y.input)))
      (((deltaF file).regs.filter P).map (fun r => (r.mid, r.y.model))) =
      .ok (((deltaF file).regs.filter P).map (fun r => (r.mid, resOf f r))) := by
    intro P
    refine evaluateModels_ok ev f _ _ ?_ ?_
    · exact fun r hr => hin r (List.mem_filter.mp hr).1
    · exact fun r hr => hf r (List.mem_filter.mp hr).1
  have hnd : ∀ P : Reg μ ι → Bool, ((((deltaF file).regs.filter P).map (fun r => (r.mid, resOf f r))).map (·.1)).Nodup := by
    intro P
    rw [List.map_map]
    exact hmids.sublist ((List.filter_sublist (l := (deltaF file).regs) (p := P)).map _)
  have hsplit : (deltaF file).regs.all (fun r => !(r.y.kind == .function)) = true := by
    rw [List.all_eq_true, deltaF_regs]
    intro r hr
    obtain ⟨c, -, hr⟩ := List.mem_flatMap.mp hr
    have h3 := (regsFrom_spec c.1 (c.1 + 1) (reg c.2)).2.2
    have : (r.period, r.y) ∈ reg c.2 := by
      rw [← h3]; exact List.mem_map.mpr ⟨r, hr, rfl⟩
    exact (List.mem_filter.mp this).2
  unfold evaluate toSt
  simp only
  rw [show (Builder.mk ((deltaF file).nodes ++ [(NodeID.uuid 0, Comp.asset)]) (deltaF file).edges).build =
    .ok (graphOf file) from build_file file]
  simp only [hev, bind, Except.bind]
  rw [collect_ok _ _ f]
  · simp only
    rw [deltaF_regs, append_all _ _ _ (allC_sorted file) (by simp)]
    simp only [List.nil_append]
    rw [combineAll_ok ev f]
    · simp only [graphOf]; rfl
    · intro c hc hm
      exact lookup_of_mem _ (allNodes_nodup file) _ (allNodes_lookup_consumer file c hc hm)
  · intro r hr
    rw [lookup_merge _ _ (hnd _), lookup_merge _ _ (hnd _)]
    rw [lookup_filter _ hmids _ _ r hr, lookup_filter _ hmids _ _ r hr, lookup_filter _ hmids _ _ r hr]
    have := (List.all_eq_true.mp hsplit) r hr
    cases hk : r.y.kind <;> simp [hk] at this ⊢
  · exact hin

/-! ## The loop over the components -/

theorem andThen_nil {β : Type} (a : Except Err (List β)) : andThen a (.ok []) = a := by
  unfold andThen
  cases a with
  | error e => rfl
  | ok x => simp

theorem andThen_ok {β : Type} {a b : Except Err (List β)} {rs : List β} (h : andThen a b = .ok rs) :
    ∃ x y, a = .ok x ∧ b = .ok y ∧ rs = x ++ y := by
  unfold andThen at h
  cases a with
  | error e => simp at h
  | ok x =>
    cases b with
    | error e => simp at h
    | ok y => simp only at h; exact ⟨x, y, rfl, rfl, (Except.ok.inj h).symm⟩

/-- Going through the nodes gives these results, after those there were before. -/
def Runs (step : List (NodeID × R) → NodeID → Except Err (List (NodeID × R))) (nodes : List NodeID)
    (spec : Except Err (List (NodeID × R))) : Prop :=
  (∀ acc, (∀ kv ∈ acc, kv.1 ∉ nodes) → nodes.foldlM step acc = spec.map (acc ++ ·)) ∧
  (∀ rs, spec = .ok rs → ∀ kv ∈ rs, kv.1 ∈ nodes)

variable {step : List (NodeID × R) → NodeID → Except Err (List (NodeID × R))}

theorem runs_nil : Runs step [] (.ok []) :=
  ⟨fun acc _ => by simp [Except.map]; rfl, by intro rs h; cases Except.ok.inj h; simp⟩

theorem runs_append {A B : List NodeID} {a b : Except Err (List (NodeID × R))} (ha : Runs step A a) (hb : Runs step B b)
    (hd : (A ++ B).Nodup) : Runs step (A ++ B) (andThen a b) := by
  refine ⟨?_, ?_⟩
  · intro acc hacc
    rw [List.foldlM_append, ha.1 acc (fun kv hkv hm => hacc kv hkv (List.mem_append_left _ hm))]
    cases hx : a with
    | error e => rfl
    | ok x =>
      have h1 : ∀ kv ∈ acc ++ x, kv.1 ∉ B := by
        intro kv hkv hm
        rcases List.mem_append.mp hkv with h | h
        · exact hacc kv h (List.mem_append_right _ hm)
        · exact (List.nodup_append.mp hd).2.2 _ (ha.2 x hx kv h) _ hm rfl
      have h2 := hb.1 (acc ++ x) h1
      refine Eq.trans (b := B.foldlM step (acc ++ x)) rfl ?_
      rw [h2]
      cases hy : b with
      | error e => rfl
      | ok y => simp [andThen, Except.map]
  · intro rs hrs kv hkv
    obtain ⟨x, y, hx, hy, rfl⟩ := andThen_ok hrs
    rcases List.mem_append.mp hkv with h | h
    · exact List.mem_append_left _ (ha.2 x hx kv h)
    · exact List.mem_append_right _ (hb.2 y hy kv h)

theorem runs_concat {α : Type} (δ : α → Delta μ ι) (spec : α → Except Err (List (NodeID × R))) (L : List α)
    (h : ∀ x ∈ L, Runs step ((δ x).nodes.map (·.1)) (spec x))
    (hn : ((concat (L.map δ)).nodes.map (·.1)).Nodup) :
    Runs step ((concat (L.map δ)).nodes.map (·.1)) (gather spec L) := by
  induction L with
  | nil => exact runs_nil
  | cons x L ih =>
    simp only [List.map_cons, concat_cons, Delta.app, List.map_append] at hn ⊢
    exact runs_append (h x (by simp)) (ih (fun y hy => h y (List.mem_cons_of_mem _ hy)) (List.nodup_append.mp hn).2.1) hn

/-- Components without a result. -/
theorem runs_skip (A : List NodeID) (h : ∀ n ∈ A, ∀ acc, step acc n = .ok acc) : Runs step A (.ok []) := by
  refine ⟨?_, by intro rs h; cases Except.ok.inj h; simp⟩
  intro acc hacc
  induction A with
  | nil => simp [Except.map]; rfl
  | cons n A ih =>
    rw [List.foldlM_cons, h n (by simp)]
    exact ih (fun m hm => h m (List.mem_cons_of_mem _ hm)) (fun kv hkv hm => hacc kv hkv (List.mem_cons_of_mem _ hm))

/-- The results of a consumer by id. -/
def idxC (ev : Eval μ ι ρ R) (f : μ → ι → ρ) (c : Nat × YConsumer μ ι) : Except Err (List (NodeID × R)) :=
  if c.2.models = [] then .ok []
  else if c.2.models.all (fun pm => pm.2.kind == .function) then
    (ev.consumer c.2).map (fun r => [(.uuid c.1, r)])
  else .ok [(.uuid c.1, ev.combine c.2 (c.2.models.map (fun pm => (pm.2.input, f pm.2.model pm.2.input))))]

def idxG (ev : Eval μ ι ρ R) (f : μ → ι → ρ) (x : Nat × YGenset μ ι) : Except Err (List (NodeID × R)) :=
  match gather (idxC ev f) (lay sizeC (x.1 + 1) x.2.consumers) with
  | .error e => .error e
  | .ok cs => (ev.genset x.2 (cs.map (·.2))).map (fun r => cs ++ [(.uuid x.1, r)])

def idxI (ev : Eval μ ι ρ R) (f : μ → ι → ρ) (z : Nat × YInstallation μ ι) : Except Err (List (NodeID × R)) :=
  andThen (gather (idxG ev f) (lay sizeG (z.1 + 1) z.2.gensets))
    (gather (idxC ev f) (lay sizeC (z.1 + 1 + total sizeG z.2.gensets) z.2.consumers))

theorem reg_of_fit {y : YConsumer μ ι} (h : Fit y) (hm : y.models ≠ []) :
    if y.models.all (fun pm => pm.2.kind == .function) then reg y = [] else reg y = y.models ∧ reg y ≠ [] := by
  rcases h.2 with hf | hf
  · rw [if_pos (by rw [List.all_eq_true]; intro pm hpm; simp [hf pm hpm])]
    unfold reg
    rw [List.filter_eq_nil_iff]
    intro pm hpm; simp [hf pm hpm]
  · have e : reg y = y.models := by
      unfold reg
      rw [List.filter_eq_self]
      intro pm hpm; simp [hf pm hpm]
    rw [if_neg]
    · exact ⟨e, by rw [e]; exact hm⟩
    · rw [List.all_eq_true]
      intro hall
      obtain ⟨pm, hpm⟩ := List.exists_mem_of_ne_nil _ hm
      exact hf pm hpm (by simpa using hall pm hpm)

theorem runs_C (ev : Eval μ ι ρ R) (f : μ → ι → ρ) (file : List (YInstallation μ ι)) (p : Nat)
    (c : Nat × YConsumer μ ι) (hc : c ∈ allC file) (hfit : Fit c.2) :
    Runs (evalStep ev (graphOf file) (fromAll ev f file)) ((deltaC p c).nodes.map (·.1)) (idxC ev f c) := by
  unfold deltaC idxC
  by_cases hm : c.2.models = []
  · rw [if_pos hm, if_pos hm]; exact runs_nil
  · rw [if_neg hm, if_neg hm]
    have hnode := getNode_of_mem file _ (allNodes_lookup_consumer file c hc hm)
    have hlook := lookup_from ev f (allC file) (allC_sorted file) c hc
    have hreg := reg_of_fit hfit hm
    refine ⟨?_, ?_⟩
    · intro acc hacc
      have hfresh : ∀ kv ∈ acc, kv.1 ≠ NodeID.uuid c.1 := by
        intro kv hkv e
        exact hacc kv hkv (by simp [e])
      simp only [List.map_cons, List.map_nil, List.foldlM_cons, List.foldlM_nil]
      unfold evalStep
      rw [hnode]
      simp only [bind, Except.bind]
      unfold fromAll
      rw [hlook]
      by_cases ha : c.2.models.all (fun pm => pm.2.kind == .function) = true
      · rw [if_pos ha] at hreg
        rw [if_pos hreg, if_pos ha]
        simp only
        cases ev.consumer c.2 with
        | error e => rfl
        | ok r =>
          simp only [pure, Except.pure, Except.map]
          rw [dictSet_new _ _ _ hfresh]
      · rw [if_neg ha] at hreg
        rw [if_neg hreg.2, if_neg ha, hreg.1]
        simp only [pure, Except.pure, Except.map]
        rw [dictSet_new _ _ _ hfresh]
    · intro rs hrs kv hkv
      by_cases ha : c.2.models.all (fun pm => pm.2.kind == .function) = true
      · rw [if_pos ha] at hrs
        cases hr : ev.consumer c.2 with
        | error e => rw [hr] at hrs; cases hrs
        | ok r =>
          rw [hr] at hrs
          cases Except.ok.inj hrs
          simp at hkv; subst hkv; simp
      · rw [if_neg ha] at hrs
        cases Except.ok.inj hrs
        simp at hkv; subst hkv; simp

theorem gather_idxC_keys (ev : Eval μ ι ρ R) (f : μ → ι → ρ) (L : List (Nat × YConsumer μ ι)) (rs : List (NodeID × R))
    (h : gather (idxC ev f) L = .ok rs) :
    rs.map (·.1) = L.flatMap fun c => if c.2.models = [] then [] else [.uuid c.1] := by
  induction L generalizing rs with
  | nil => cases Except.ok.inj h; rfl
  | cons c L ih =>
    obtain ⟨x, y, hx, hy, rfl⟩ := andThen_ok h
    rw [List.map_append, ih y hy, List.flatMap_cons]
    congr 1
    unfold idxC at hx
    by_cases hm : c.2.models = []
    · rw [if_pos hm] at hx; cases Except.ok.inj hx; simp [hm]
    · rw [if_neg hm] at hx
      simp only [hm, if_false]
      by_cases ha : c.2.models.all (fun pm => pm.2.kind == .function) = true
      · rw [if_pos ha] at hx
        cases hr : ev.consumer c.2 with
        | error e => rw [hr] at hx; cases hx
        | ok r => rw [hr] at hx; cases Except.ok.inj hx; rfl
      · rw [if_neg ha] at hx
        cases Except.ok.inj hx; rfl

theorem resultsOf_ok (acc cs : List (NodeID × R)) (ks : List (NodeID × R)) (hsub : ∀ kv ∈ ks, kv ∈ cs)
    (hn : (cs.map (·.1)).Nodup) (hd : ∀ kv ∈ acc, kv.1 ∉ cs.map (·.1)) :
    resultsOf (acc ++ cs) (ks.map (·.1)) = .ok (ks.map (·.2)) := by
  induction ks with
  | nil => rfl
  | cons kv ks ih =>
    have hl : (acc ++ cs).lookup kv.1 = some kv.2 := by
      have h1 : ∀ l : List (NodeID × R), (∀ q ∈ l, q.1 ≠ kv.1) → (l ++ cs).lookup kv.1 = cs.lookup kv.1 := by
        intro l
        induction l with
        | nil => simp
        | cons q l ihl =>
          intro hq
          obtain ⟨q1, q2⟩ := q
          have : ¬ kv.1 = q1 := fun e => hq (q1, q2) (by simp) e.symm
          have hb : (kv.1 == q1) = false := by simpa using this
          simp only [List.cons_append, List.lookup, hb]
          exact ihl (fun q' hq' => hq q' (List.mem_cons_of_mem _ hq'))
      have hmem := hsub kv (by simp)
      rw [h1 acc (fun q hq e => hd q hq (e ▸ List.mem_map.mpr ⟨kv, hmem, rfl⟩)), lookup_of_mem _ hn kv hmem]
    simp only [List.map_cons, resultsOf]
    rw [hl]
    simp only
    rw [ih (fun q hq => hsub q (List.mem_cons_of_mem _ hq))]

theorem runs_G (ev : Eval μ ι ρ R) (f : μ → ι → ρ) (file : List (YInstallation μ ι)) (p : Nat)
    (z : Nat × YInstallation μ ι) (hz : z ∈ lay sizeI 1 file) (x : Nat × YGenset μ ι)
    (hx : x ∈ lay sizeG (z.1 + 1) z.2.gensets) (hfit : ∀ c ∈ consumersOf file, Fit c) :
    Runs (evalStep ev (graphOf file) (fromAll ev f file)) ((deltaG p x).nodes.map (·.1)) (idxG ev f x) := by
  have hmem : ∀ c ∈ lay sizeC (x.1 + 1) x.2.consumers, c ∈ allC file := by
    intro c hc
    exact List.mem_flatMap.mpr ⟨z, hz, List.mem_append_left _ (List.mem_flatMap.mpr ⟨x, hx, hc⟩)⟩
  have hmf : ∀ c ∈ allC file, Fit c.2 := by
    intro c hc
    refine hfit _ ?_
    rw [← allC_snd]
    exact List.mem_map.mpr ⟨c, hc, rfl⟩
  have hin := allNodes_genset file z hz x hx
  have hnode := getNode_of_mem file _ hin
  have hsucc := getSuccessors_genset file z hz x hx hin
  have hw := within_concat (μ := μ) (ι := ι) sizeC (deltaC x.1) (x.1 + 1) x.2.consumers (fun y _ => within_C _ y)
  have hcs := runs_concat (step := evalStep ev (graphOf file) (fromAll ev f file)) (deltaC x.1) (idxC ev f)
    (lay sizeC (x.1 + 1) x.2.consumers) (fun c hc => runs_C ev f file x.1 c (hmem c hc) (hmf c (hmem c hc)))
    hw.nodupNodes
  have hself : NodeID.uuid x.1 ∉ (concat ((lay sizeC (x.1 + 1) x.2.consumers).map (deltaC x.1))).nodes.map (·.1) := by
    intro hm
    obtain ⟨kv, hkv, e⟩ := List.mem_map.mp hm
    obtain ⟨k, e', h1, h2⟩ := hw.nodes kv hkv
    rw [e'] at e; injection e with e; omega
  unfold deltaG idxG
  simp only [Delta.add, List.map_append, List.map_cons, List.map_nil]
  refine ⟨?_, ?_⟩
  · intro acc hacc
    rw [List.foldlM_append, hcs.1 acc (fun kv hkv hm => hacc kv hkv (List.mem_append_left _ hm))]
    cases hg : gather (idxC ev f) (lay sizeC (x.1 + 1) x.2.consumers) with
    | error e => rfl
    | ok cs =>
      have hkeys := gather_idxC_keys ev f _ cs hg
      have hsubn := hcs.2 cs hg
      have hcn : (cs.map (·.1)).Nodup := by
        have hk : (lay sizeC (x.1 + 1) x.2.consumers).flatMap (fun c =>
            if c.2.models = [] then [] else [NodeID.uuid c.1]) =
            (concat ((lay sizeC (x.1 + 1) x.2.consumers).map (deltaC x.1))).nodes.map (·.1) := by
          generalize lay sizeC (x.1 + 1) x.2.consumers = L
          induction L with
          | nil => rfl
          | cons c L ih =>
            rw [List.map_cons, concat_cons, List.flatMap_cons, ih, Delta.app, List.map_append]
            congr 1
            unfold deltaC
            by_cases h : c.2.models = []
            · simp [h, Delta.nil]
            · simp [h]
        rw [hkeys, hk]
        exact hw.nodupNodes
      have hdis : ∀ kv ∈ acc, kv.1 ∉ cs.map (·.1) := by
        intro kv hkv hm
        obtain ⟨q, hq, e⟩ := List.mem_map.mp hm
        exact hacc kv hkv (List.mem_append_left _ (e ▸ hsubn q hq))
      have hres : resultsOf (acc ++ cs) (kept x) = .ok (cs.map (·.2)) := by
        have : kept x = cs.map (·.1) := hkeys.symm
        rw [this]
        exact resultsOf_ok acc cs cs (fun _ h => h) hcn hdis
      have hfresh : ∀ kv ∈ acc ++ cs, kv.1 ≠ NodeID.uuid x.1 := by
        intro kv hkv e
        rcases List.mem_append.mp hkv with h | h
        · exact hacc kv h (List.mem_append_right _ (by simp [e]))
        · exact hself (e ▸ hsubn kv h)
      refine Eq.trans (b := [NodeID.uuid x.1].foldlM (evalStep ev (graphOf file) (fromAll ev f file)) (acc ++ cs)) rfl ?_
      simp only [List.foldlM_cons, List.foldlM_nil]
      unfold evalStep
      rw [hnode]
      simp only [bind, Except.bind]
      rw [hsucc]
      simp only
      rw [hres]
      simp only
      cases ev.genset x.2 (cs.map (·.2)) with
      | error e => rfl
      | ok r =>
        simp only [pure, Except.pure, Except.map]
        rw [dictSet_new _ _ _ hfresh, List.append_assoc]
  · intro rs hrs kv hkv
    cases hg : gather (idxC ev f) (lay sizeC (x.1 + 1) x.2.consumers) with
    | error e => rw [hg] at hrs; cases hrs
    | ok cs =>
      rw [hg] at hrs
      simp only at hrs
      cases hr : ev.genset x.2 (cs.map (·.2)) with
      | error e => rw [hr] at hrs; cases hrs
      | ok r =>
        rw [hr] at hrs
        cases Except.ok.inj hrs
        rcases List.mem_append.mp hkv with h | h
        · exact List.mem_append_left _ (hcs.2 cs hg kv h)
        · simp at h; subst h; simp

theorem runs_I (ev : Eval μ ι ρ R) (f : μ → ι → ρ) (file : List (YInstallation μ ι))
    (z : Nat × YInstallation μ ι) (hz : z ∈ lay sizeI 1 file) (hfit : ∀ c ∈ consumersOf file, Fit c) :
    Runs (evalStep ev (graphOf file) (fromAll ev f file)) ((deltaI 0 z).nodes.map (·.1)) (idxI ev f z) := by
  have hmf : ∀ c ∈ allC file, Fit c.2 := by
    intro c hc
    refine hfit _ ?_
    rw [← allC_snd]
    exact List.mem_map.mpr ⟨c, hc, rfl⟩
  have hnodes : ∀ kv ∈ (deltaI 0 z).nodes, kv ∈ allNodes file := by
    intro kv hkv
    refine List.mem_append_left _ ?_
    simp only [deltaF, concat, List.mem_flatMap, List.mem_map, exists_exists_and_eq_and]
    exact ⟨z, hz, hkv⟩
  have hall := (within_I 0 z).nodupNodes
  unfold deltaI at hall hnodes ⊢
  simp only [Delta.add, Delta.app, List.map_append] at hall hnodes ⊢
  have h1 := (List.nodup_append.mp hall).1
  have h2 := (List.nodup_append.mp h1).1
  have h3 := List.nodup_append.mp h2
  have rG := runs_concat (step := evalStep ev (graphOf file) (fromAll ev f file)) (deltaG z.1) (idxG ev f)
    (lay sizeG (z.1 + 1) z.2.gensets) (fun x hx => runs_G ev f file z.1 z hz x hx hfit) h3.1
  have rC := runs_concat (step := evalStep ev (graphOf file) (fromAll ev f file)) (deltaC z.1) (idxC ev f)
    (lay sizeC (z.1 + 1 + total sizeG z.2.gensets) z.2.consumers)
    (fun c hc => by
      have hm : c ∈ allC file := List.mem_flatMap.mpr ⟨z, hz, List.mem_append_right _ hc⟩
      exact runs_C ev f file z.1 c hm (hmf c hm)) h3.2.1
  have hskip : ∀ kv ∈ allNodes file, (∀ y, kv.2 ≠ .consumer y) → (∀ y, kv.2 ≠ .genset y) → ∀ acc,
      evalStep ev (graphOf file) (fromAll ev f file) acc kv.1 = .ok acc := by
    intro kv hkv hc hg acc
    unfold evalStep
    rw [getNode_of_mem file kv hkv]
    simp only [bind, Except.bind]
    cases hk : kv.2 with
    | consumer y => exact absurd hk (hc y)
    | genset y => exact absurd hk (hg y)
    | emitter _ => rfl
    | installation _ => rfl
    | asset => rfl
  have rE := runs_skip (step := evalStep ev (graphOf file) (fromAll ev f file))
    ((concat ((lay sizeE (z.1 + 1 + total sizeG z.2.gensets + total sizeC z.2.consumers) z.2.emitters).map
      (deltaE (μ := μ) (ι := ι) z.1))).nodes.map (·.1)) (by
      intro n hn acc
      obtain ⟨kv, hkv, rfl⟩ := List.mem_map.mp hn
      have hin := hnodes kv (List.mem_append_left _ (List.mem_append_right _ hkv))
      simp only [concat, List.mem_flatMap, List.mem_map, exists_exists_and_eq_and] at hkv
      obtain ⟨x, -, hkv⟩ := hkv
      simp [deltaE, Delta.add, Delta.nil] at hkv
      exact hskip kv hin (by simp [hkv]) (by simp [hkv]) acc)
  have rI := runs_skip (step := evalStep ev (graphOf file) (fromAll ev f file))
    [NodeID.uuid z.1] (by
      intro n hn acc
      simp at hn; subst hn
      exact hskip (NodeID.uuid z.1, Comp.installation z.2.name) (hnodes _ (by simp)) (by simp) (by simp) acc)
  have := runs_append (runs_append (runs_append rG rC h2) rE h1) rI hall
  rw [andThen_nil, andThen_nil] at this
  exact this

theorem evaluate_file (ev : Eval μ ι ρ R) (f : μ → ι → ρ) (file : List (YInstallation μ ι))
    (hfit : ∀ c ∈ consumersOf file, Fit c)
    (hf : ∀ r ∈ (deltaF file).regs, ev.model r.y.model r.y.input = .ok (f r.y.model r.y.input)) :
    evaluate ev (mapFile file) = gather (idxI ev f) (lay sizeI 1 file) := by
  rw [evaluate_unfold ev f file (fun c hc => (hfit c hc).1) hf]
  have r1 := runs_concat (step := evalStep ev (graphOf file) (fromAll ev f file)) (deltaI 0) (idxI ev f)
    (lay sizeI 1 file) (fun z hz => runs_I ev f file z hz hfit) (within_F file).nodupNodes
  have r2 : Runs (evalStep ev (graphOf file) (fromAll ev f file)) [NodeID.uuid 0] (.ok []) := by
    refine runs_skip _ ?_
    intro n hn acc
    simp at hn; subst hn
    unfold evalStep
    rw [getNode_of_mem file (NodeID.uuid 0, Comp.asset) (by simp [allNodes])]
    rfl
  have hn := allNodes_nodup file
  have r := runs_append r1 r2 (by simpa [allNodes, deltaF] using hn)
  rw [andThen_nil] at r
  have := r.1 [] (by simp)
  simp only [allNodes, List.map_append, List.map_cons, List.map_nil]
  rw [show (deltaF file).nodes = (concat ((lay sizeI 1 file).map (deltaI 0))).nodes from rfl, this]
  cases gather (idxI ev f) (lay sizeI 1 file) <;> simp [Except.map]

/-! ## Names -/

theorem gather_rename {α α' β β' : Type} (h : β → β') (u : α → Except Err (List β)) (v : α' → Except Err (List β'))
    (t : α → α') (L : List α) (huv : ∀ x ∈ L, (u x).map (·.map h) = v (t x)) :
    (gather u L).map (·.map h) = gather v (L.map t) := by
  induction L with
  | nil => rfl
  | cons x L ih =>
    have h1 := huv x (by simp)
    have h2 := ih (fun y hy => huv y (List.mem_cons_of_mem _ hy))
    rw [List.map_cons, gather, gather, ← h1, ← h2]
    cases u x with
    | error e => rfl
    | ok a =>
      cases gather u L with
      | error e => rfl
      | ok b => simp [andThen, Except.map]

theorem andThen_rename {β β' : Type} (h : β → β') (a b : Except Err (List β)) :
    (andThen a b).map (·.map h) = andThen (a.map (·.map h)) (b.map (·.map h)) := by
  cases a with
  | error e => rfl
  | ok x =>
    cases b with
    | error e => rfl
    | ok y => simp [andThen, Except.map]

/-- Add that the component has been found. -/
def found (x : String × R) : Option String × R := (some x.1, x.2)

/-- Specification: the results of a file. -/
def fileSpec (ev : Eval μ ι ρ R) (f : μ → ι → ρ) (file : List (YInstallation μ ι)) : Except Err (List (String × R)) :=
  gather (installationSpec ev f) file

theorem name_C (ev : Eval μ ι ρ R) (f : μ → ι → ρ) (nm : NodeID → Option String) (c : Nat × YConsumer μ ι)
    (h : c.2.models ≠ [] → nm (.uuid c.1) = some c.2.name) :
    (idxC ev f c).map (·.map fun kr => (nm kr.1, kr.2)) = (consumerSpec ev f c.2).map (·.map found) := by
  unfold idxC consumerSpec
  by_cases hm : c.2.models = []
  · simp [hm, Except.map]
  · rw [if_neg hm, if_neg hm]
    by_cases ha : c.2.models.all (fun pm => pm.2.kind == .function) = true
    · rw [if_pos ha, if_pos ha]
      cases ev.consumer c.2 with
      | error e => rfl
      | ok r => simp [Except.map, found, h hm]
    · rw [if_neg ha, if_neg ha]
      simp [Except.map, found, h hm]

theorem gather_map {α β β' : Type} (h : β → β') (u : α → Except Err (List β)) (L : List α) :
    (gather u L).map (·.map h) = gather (fun x => (u x).map (·.map h)) L := by
  have := gather_rename h u (fun x => (u x).map (·.map h)) id L (fun _ _ => rfl)
  simpa using this

theorem name_Cs (ev : Eval μ ι ρ R) (f : μ → ι → ρ) (nm : NodeID → Option String) (n : Nat) (cs : List (YConsumer μ ι))
    (h : ∀ c ∈ lay sizeC n cs, c.2.models ≠ [] → nm (.uuid c.1) = some c.2.name) :
    (gather (idxC ev f) (lay sizeC n cs)).map (·.map fun kr => (nm kr.1, kr.2)) =
      (gather (consumerSpec ev f) cs).map (·.map found) := by
  rw [gather_map found, gather_rename _ _ (fun c => (consumerSpec ev f c).map (·.map found)) (·.2) _
    (fun c hc => name_C ev f nm c (h c hc)), lay_map_snd]

theorem name_G (ev : Eval μ ι ρ R) (f : μ → ι → ρ) (nm : NodeID → Option String) (x : Nat × YGenset μ ι)
    (h : ∀ c ∈ lay sizeC (x.1 + 1) x.2.consumers, c.2.models ≠ [] → nm (.uuid c.1) = some c.2.name)
    (hx : nm (.uuid x.1) = some x.2.name) :
    (idxG ev f x).map (·.map fun kr => (nm kr.1, kr.2)) = (gensetSpec ev f x.2).map (·.map found) := by
  have hc := name_Cs ev f nm (x.1 + 1) x.2.consumers h
  unfold idxG gensetSpec
  cases h1 : gather (idxC ev f) (lay sizeC (x.1 + 1) x.2.consumers) with
  | error e =>
    rw [h1] at hc
    cases h2 : gather (consumerSpec ev f) x.2.consumers with
    | error e' => rw [h2] at hc; simpa [Except.map] using hc
    | ok b => rw [h2] at hc; simp [Except.map] at hc
  | ok a =>
    rw [h1] at hc
    cases h2 : gather (consumerSpec ev f) x.2.consumers with
    | error e' => rw [h2] at hc; simp [Except.map] at hc
    | ok b =>
      rw [h2] at hc
      simp only [Except.map, Except.ok.injEq] at hc
      have hv : a.map (·.2) = b.map (·.2) := by
        have := congrArg (List.map (·.2)) hc
        simpa [found, Function.comp_def] using this
      simp only
      rw [hv]
      cases ev.genset x.2 (b.map (·.2)) with
      | error e => rfl
      | ok r => simp [Except.map, hc, found, hx]

theorem name_I (ev : Eval μ ι ρ R) (f : μ → ι → ρ) (nm : NodeID → Option String) (z : Nat × YInstallation μ ι)
    (h1 : ∀ g ∈ lay sizeG (z.1 + 1) z.2.gensets, nm (.uuid g.1) = some g.2.name ∧
      ∀ c ∈ lay sizeC (g.1 + 1) g.2.consumers, c.2.models ≠ [] → nm (.uuid c.1) = some c.2.name)
    (h2 : ∀ c ∈ lay sizeC (z.1 + 1 + total sizeG z.2.gensets) z.2.consumers, c.2.models ≠ [] →
      nm (.uuid c.1) = some c.2.name) :
    (idxI ev f z).map (·.map fun kr => (nm kr.1, kr.2)) = (installationSpec ev f z.2).map (·.map found) := by
  unfold idxI installationSpec
  rw [andThen_rename, andThen_rename, name_Cs ev f nm _ _ h2, gather_map found (gensetSpec ev f),
    gather_rename _ _ (fun g => (gensetSpec ev f g).map (·.map found)) (·.2) _
      (fun g hg => name_G ev f nm g (h1 g hg).2 (h1 g hg).1), lay_map_snd]

/-! ## Theorems -/

theorem regs_mem {file : List (YInstallation μ ι)} {r : Reg μ ι} (hr : r ∈ (deltaF file).regs) :
    ∃ c ∈ consumersOf file, ∃ pm ∈ c.models, pm.2.kind ≠ .function ∧ pm.2 = r.y := by
  rw [deltaF_regs] at hr
  obtain ⟨c, hc, hr⟩ := List.mem_flatMap.mp hr
  have h3 := (regsFrom_spec c.1 (c.1 + 1) (reg c.2)).2.2
  have hm : (r.period, r.y) ∈ reg c.2 := by
    rw [← h3]; exact List.mem_map.mpr ⟨r, hr, rfl⟩
  have hm' := List.mem_filter.mp hm
  refine ⟨c.2, ?_, _, hm'.1, by simpa using hm'.2, rfl⟩
  rw [← allC_snd]
  exact List.mem_map.mpr ⟨c, hc, rfl⟩

theorem mem_regs {file : List (YInstallation μ ι)} {c : YConsumer μ ι} (hc : c ∈ consumersOf file)
    {pm : Period × YModel μ ι} (hpm : pm ∈ c.models) (hk : pm.2.kind ≠ .function) :
    ∃ r ∈ (deltaF file).regs, r.y = pm.2 := by
  rw [← allC_snd] at hc
  obtain ⟨x, hx, rfl⟩ := List.mem_map.mp hc
  have h3 := (regsFrom_spec x.1 (x.1 + 1) (reg x.2)).2.2
  have hm : pm ∈ reg x.2 := List.mem_filter.mpr ⟨hpm, by simpa using hk⟩
  rw [← h3] at hm
  obtain ⟨r, hr, e⟩ := List.mem_map.mp hm
  refine ⟨r, ?_, by rw [← e]⟩
  rw [deltaF_regs]
  exact List.mem_flatMap.mpr ⟨x, hx, hr⟩

/-- **C89.** When the models of the file can be evaluated, a run gives exactly the results of the file: one for each
consumer that has a model in the period of the file, from the models of all its periods in the order of the file, and one
for each generator set, from the results of its own consumers. The first error of a consumer or generator set, in this
order, stops the run; nothing else does. -/
theorem C89_run (ev : Eval μ ι ρ R) (f : μ → ι → ρ) (file : List (YInstallation μ ι))
    (hfit : ∀ c ∈ consumersOf file, Fit c)
    (hf : ∀ c ∈ consumersOf file, ∀ pm ∈ c.models, pm.2.kind ≠ .function →
      ev.model pm.2.model pm.2.input = .ok (f pm.2.model pm.2.input)) :
    (evaluate ev (mapFile file)).map (named (mapFile file)) = (fileSpec ev f file).map (·.map found) := by
  rw [evaluate_file ev f file hfit (fun r hr => by
    obtain ⟨c, hc, pm, hpm, hk, e⟩ := regs_mem hr
    rw [← e]; exact hf c hc pm hpm hk)]
  have hnm : ∀ kv ∈ allNodes file, ((allNodes file).lookup kv.1).map Comp.name = some kv.2.name := by
    intro kv hkv
    rw [lookup_of_mem _ (allNodes_nodup file) kv hkv]; rfl
  have hnamed : (named (mapFile file) : List (NodeID × R) → _) =
      fun rs => rs.map fun kr => (((allNodes file).lookup kr.1).map Comp.name, kr.2) := by
    funext rs
    unfold named
    rw [mapFile_spec file (fun c hc => (hfit c hc).1)]
    rfl
  rw [hnamed]
  unfold fileSpec
  rw [gather_map found, gather_rename _ _ (fun z => (installationSpec ev f z).map (·.map found)) (·.2) _
    (fun z hz => name_I ev f (fun k => ((allNodes file).lookup k).map Comp.name) z ?_ ?_), lay_map_snd]
  · intro g hg
    refine ⟨hnm _ (allNodes_genset file z hz g hg), ?_⟩
    intro c hc hm
    exact hnm _ (allNodes_lookup_consumer file c
      (List.mem_flatMap.mpr ⟨z, hz, List.mem_append_left _ (List.mem_flatMap.mpr ⟨g, hg, hc⟩)⟩) hm)
  · intro c hc hm
    exact hnm _ (allNodes_lookup_consumer file c (List.mem_flatMap.mpr ⟨z, hz, List.mem_append_right _ hc⟩) hm)

/-- **C89.** When a model cannot be evaluated the run fails, with the error of such a model. -/
theorem C89_failing_model (ev : Eval μ ι ρ R) (file : List (YInstallation μ ι))
    (hfit : ∀ c ∈ consumersOf file, Fit c)
    (hf : ∃ c ∈ consumersOf file, ∃ pm ∈ c.models, pm.2.kind ≠ .function ∧
      ∃ e, ev.model pm.2.model pm.2.input = .error e) :
    ∃ e, evaluate ev (mapFile file) = .error e ∧
      ∃ c ∈ consumersOf file, ∃ pm ∈ c.models, pm.2.kind ≠ .function ∧ ev.model pm.2.model pm.2.input = .error e := by
  rw [mapFile_spec file (fun c hc => (hfit c hc).1)]
  have hmids := (within_F file).nodupMids
  have hin : ∀ r ∈ (deltaF file).regs,
      ((deltaF file).regs.map (fun r => (r.mid, r.y.input))).lookup r.mid = some r.y.input := by
    intro r hr
    refine lookup_of_mem _ ?_ (r.mid, r.y.input) (List.mem_map.mpr ⟨r, hr, rfl⟩)
    rw [List.map_map]
    exact hmids
  have hwhere : ∀ (P : Reg μ ι → Bool) (e : Err),
      evaluateModels ev ((deltaF file).regs.map (fun r => (r.mid, r.y.input)))
        (((deltaF file).regs.filter P).map (fun r => (r.mid, r.y.model))) = .error e →
      ∃ c ∈ consumersOf file, ∃ pm ∈ c.models, pm.2.kind ≠ .function ∧ ev.model pm.2.model pm.2.input = .error e := by
    intro P e he
    obtain ⟨r, hr, h⟩ := evaluateModels_error ev _ _ (fun r hr => hin r (List.mem_filter.mp hr).1) e he
    obtain ⟨c, hc, pm, hpm, hk, e'⟩ := regs_mem (List.mem_filter.mp hr).1
    exact ⟨c, hc, pm, hpm, hk, by rw [e']; exact h⟩
  obtain ⟨c, hc, pm, hpm, hk, e, he⟩ := hf
  obtain ⟨r, hr, hry⟩ := mem_regs hc hpm hk
  rw [← hry] at he hk
  have hfails : ∀ P : Reg μ ι → Bool, P r = true →
      ∃ e, evaluateModels ev ((deltaF file).regs.map (fun r => (r.mid, r.y.input)))
        (((deltaF file).regs.filter P).map (fun r => (r.mid, r.y.model))) = .error e :=
    fun P hP => evaluateModels_fails ev _ _ ⟨r, List.mem_filter.mpr ⟨hr, hP⟩, e, hin r hr, he⟩
  unfold evaluate toSt
  simp only
  rw [show (Builder.mk ((deltaF file).nodes ++ [(NodeID.uuid 0, Comp.asset)]) (deltaF file).edges).build =
    .ok (graphOf file) from build_file file]
  simp only [bind, Except.bind]
  cases h1 : evaluateModels ev ((deltaF file).regs.map (fun r => (r.mid, r.y.input)))
      (((deltaF file).regs.filter (fun r => r.y.kind == .train)).map (fun r => (r.mid, r.y.model))) with
  | error e1 => exact ⟨e1, rfl, hwhere _ e1 h1⟩
  | ok v1 =>
    simp only
    cases h2 : evaluateModels ev ((deltaF file).regs.map (fun r => (r.mid, r.y.input)))
        (((deltaF file).regs.filter (fun r => r.y.kind == .pump)).map (fun r => (r.mid, r.y.model))) with
    | error e1 => exact ⟨e1, rfl, hwhere _ e1 h2⟩
    | ok v2 =>
      simp only
      cases h3 : evaluateModels ev ((deltaF file).regs.map (fun r => (r.mid, r.y.input)))
          (((deltaF file).regs.filter (fun r => r.y.kind == .sampled)).map (fun r => (r.mid, r.y.model))) with
      | error e1 => exact ⟨e1, rfl, hwhere _ e1 h3⟩
      | ok v3 =>
        exfalso
        cases hkr : r.y.kind with
        | function => exact hk hkr
        | train =>
          obtain ⟨e', h'⟩ := hfails (fun r => r.y.kind == .train) (by simp [hkr])
          rw [h1] at h'; cases h'
        | pump =>
          obtain ⟨e', h'⟩ := hfails (fun r => r.y.kind == .pump) (by simp [hkr])
          rw [h2] at h'; cases h'
        | sampled =>
          obtain ⟨e', h'⟩ := hfails (fun r => r.y.kind == .sampled) (by simp [hkr])
          rw [h3] at h'; cases h'

/-- Specification: the components of a file that have a result. -/
def resultNames (file : List (YInstallation μ ι)) : List String :=
  let ofConsumers (cs : List (YConsumer μ ι)) := (cs.filter fun c => !c.models.isEmpty).map (·.name)
  file.flatMap fun i => i.gensets.flatMap (fun g => ofConsumers g.consumers ++ [g.name]) ++ ofConsumers i.consumers

theorem gather_names {α : Type} (u : α → Except Err (List (String × R))) (names : α → List String) (L : List α)
    (h : ∀ x rs, u x = .ok rs → rs.map (·.1) = names x) (rs : List (String × R)) (hg : gather u L = .ok rs) :
    rs.map (·.1) = L.flatMap names := by
  induction L generalizing rs with
  | nil => cases Except.ok.inj hg; rfl
  | cons x L ih =>
    obtain ⟨a, b, ha, hb, rfl⟩ := andThen_ok hg
    rw [List.map_append, h x a ha, ih b hb, List.flatMap_cons]

/-- **C89.** A run that ends has a result for every generator set and every consumer with a model in the period of the
file, each exactly once, and for nothing else; consumers come before the generator set that feeds them. -/
theorem C89_who_has_results (ev : Eval μ ι ρ R) (f : μ → ι → ρ) (file : List (YInstallation μ ι))
    (hfit : ∀ c ∈ consumersOf file, Fit c)
    (hf : ∀ c ∈ consumersOf file, ∀ pm ∈ c.models, pm.2.kind ≠ .function →
      ev.model pm.2.model pm.2.input = .ok (f pm.2.model pm.2.input))
    (rs : List (NodeID × R)) (h : evaluate ev (mapFile file) = .ok rs) :
    (named (mapFile file) rs).map (·.1) = (resultNames file).map some := by
  have hrun := C89_run ev f file hfit hf
  rw [h] at hrun
  cases hs : fileSpec ev f file with
  | error e => rw [hs] at hrun; cases hrun
  | ok ns =>
    rw [hs] at hrun
    simp only [Except.map, Except.ok.injEq] at hrun
    rw [hrun, List.map_map]
    have hC : ∀ (c : YConsumer μ ι) (rs : List (String × R)), consumerSpec ev f c = .ok rs →
        rs.map (·.1) = if c.models.isEmpty then [] else [c.name] := by
      intro c rs h
      unfold consumerSpec at h
      by_cases hm : c.models = []
      · rw [if_pos hm] at h; cases Except.ok.inj h; simp [hm]
      · rw [if_neg hm] at h
        have hm' : c.models.isEmpty = false := by simpa using hm
        by_cases ha : c.models.all (fun pm => pm.2.kind == .function) = true
        · rw [if_pos ha] at h
          cases hr : ev.consumer c with
          | error e => rw [hr] at h; cases h
          | ok r => rw [hr] at h; cases Except.ok.inj h; simp [hm']
        · rw [if_neg ha] at h
          cases Except.ok.inj h; simp [hm']
    have hkeep : ∀ cs : List (YConsumer μ ι), cs.flatMap (fun c => if c.models.isEmpty then [] else [c.name]) =
        (cs.filter fun c => !c.models.isEmpty).map (·.name) := by
      intro cs
      induction cs with
      | nil => rfl
      | cons c cs ih =>
        rw [List.flatMap_cons, ih, List.filter_cons]
        cases hc : c.models.isEmpty <;> rfl
    have hG : ∀ (g : YGenset μ ι) (rs : List (String × R)), gensetSpec ev f g = .ok rs →
        rs.map (·.1) = (g.consumers.filter fun c => !c.models.isEmpty).map (·.name) ++ [g.name] := by
      intro g rs h
      unfold gensetSpec at h
      cases hc : gather (consumerSpec ev f) g.consumers with
      | error e => rw [hc] at h; cases h
      | ok cs =>
        rw [hc] at h
        simp only at h
        cases hr : ev.genset g (cs.map (·.2)) with
        | error e => rw [hr] at h; cases h
        | ok r =>
          rw [hr] at h
          cases Except.ok.inj h
          rw [List.map_append, gather_names _ _ _ hC cs hc, hkeep]
          rfl
    have := gather_names (installationSpec ev f) (fun i =>
        i.gensets.flatMap (fun g => (g.consumers.filter fun c => !c.models.isEmpty).map (·.name) ++ [g.name]) ++
          (i.consumers.filter fun c => !c.models.isEmpty).map (·.name)) file (by
      intro i rs h
      obtain ⟨a, b, ha, hb, rfl⟩ := andThen_ok h
      rw [List.map_append, gather_names _ _ _ hG a ha, gather_names _ _ _ hC b hb, hkeep]) ns hs
    unfold resultNames
    rw [← this, List.map_map]
    rfl

/-! ### Non-vacuity -/

/-- A file: a generator set that feeds a pump with two models and a direct consumer, then a consumer that has no model in
the period of the file; a compressor that burns fuel; an emitter. Models and inputs are numbers. -/
def sampleFile : List (YInstallation Nat Nat) :=
  [⟨"inst", [⟨"genset", [⟨"pump", [(⟨0, 10⟩, ⟨.pump, 1, 2⟩), (⟨10, 20⟩, ⟨.pump, 3, 4⟩)]⟩,
      ⟨"late", []⟩, ⟨"base load", [(⟨0, 20⟩, ⟨.function, 5, 6⟩)]⟩]⟩],
    [⟨"compressor", [(⟨0, 20⟩, ⟨.train, 7, 8⟩)]⟩], ["flare"]⟩]

/-- Models add their input, a consumer adds up its models, a base load is 100, a generator set adds up its consumers. -/
def sampleEval : Eval Nat Nat Nat Nat where
  model m i := .ok (m + i)
  combine _ rs := (rs.map (·.2)).sum
  consumer _ := .ok 100
  genset _ rs := .ok rs.sum

example : ∀ c ∈ consumersOf sampleFile, Fit c := by
  intro c hc
  simp [consumersOf, sampleFile] at hc
  rcases hc with rfl | rfl | rfl | rfl <;> simp [Fit]

example : (match (evaluate sampleEval (mapFile sampleFile)).map (named (mapFile sampleFile)) with
    | .ok rs => rs | .error _ => []) =
    [(some "pump", 10), (some "base load", 100), (some "genset", 110), (some "compressor", 15)] := by
  decide +kernel

example : (match evaluate { sampleEval with model := fun m i => if m = 7 then .error .valueError else .ok (m + i) }
    (mapFile sampleFile) with
    | .ok _ => none | .error e => some e) = some .valueError := by
  decide +kernel

end Verif.C89
