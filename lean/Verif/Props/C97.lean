import Verif.Model.YamlRead
import Mathlib.Data.List.Basic
import Mathlib.Tactic.Tauto

/-!
# C97: reading a file with includes is reading the file with the includes written out

Specification: `subst` writes included files in the places where they are included, `shape` is the object that a document
says, and a document is `Good` when no mapping in it has two equal keys and nothing in it is a merge key.
-/

namespace Verif.C97
open Verif.YamlRead

/-! ## Specification -/

mutual

/-- The document with its includes written out, given what each name stands for. -/
def subst (sub : String → Node) : Node → Node
  | .scalar s m => .scalar s m
  | .seq l => .seq (substSeq sub l)
  | .map l => .map (substMap sub l)
  | .incl n _ => sub n

@[inherit_doc subst]
def substSeq (sub : String → Node) : List Node → List Node
  | [] => []
  | n :: ns => subst sub n :: substSeq sub ns

@[inherit_doc subst]
def substMap (sub : String → Node) : List (Sc × Mark × Node) → List (Sc × Mark × Node)
  | [] => []
  | (s, m, n) :: ns => (s, m, subst sub n) :: substMap sub ns

end

mutual

/-- What a document without includes says. -/
def shape : Node → Val
  | .scalar s _ => .scalar s
  | .seq l => .seq (shapeSeq l)
  | .map l => .map (shapeMap l)
  | .incl _ _ => .scalar .null

@[inherit_doc shape]
def shapeSeq : List Node → List Val
  | [] => []
  | n :: ns => shape n :: shapeSeq ns

@[inherit_doc shape]
def shapeMap : List (Sc × Mark × Node) → List (Sc × Val)
  | [] => []
  | (s, _, n) :: ns => (s, shape n) :: shapeMap ns

end

/-- The keys of a mapping are keys, and different. -/
def KeysDiffer (l : List (Sc × Mark × Node)) : Prop :=
  (∀ e ∈ l, e.1.key ≠ none) ∧ (l.map fun e => e.1.key).Nodup

mutual

/-- No includes, no merge keys, and all keys of a mapping are different. -/
def Good : Node → Prop
  | .scalar s _ => s ≠ .merge
  | .seq l => GoodSeq l
  | .map l => KeysDiffer l ∧ GoodMap l
  | .incl _ _ => False

@[inherit_doc Good]
def GoodSeq : List Node → Prop
  | [] => True
  | n :: ns => Good n ∧ GoodSeq ns

@[inherit_doc Good]
def GoodMap : List (Sc × Mark × Node) → Prop
  | [] => True
  | (_, _, n) :: ns => Good n ∧ GoodMap ns

end

mutual

/-- The includes in a document. -/
def includes : Node → List String
  | .scalar _ _ => []
  | .seq l => includesSeq l
  | .map l => includesMap l
  | .incl n _ => [n]

@[inherit_doc includes]
def includesSeq : List Node → List String
  | [] => []
  | n :: ns => includes n ++ includesSeq ns

@[inherit_doc includes]
def includesMap : List (Sc × Mark × Node) → List String
  | [] => []
  | (_, _, n) :: ns => includes n ++ includesMap ns

end

mutual

/-- The mappings in a document. -/
def maps : Node → List (List (Sc × Mark × Node))
  | .scalar _ _ => []
  | .seq l => mapsSeq l
  | .map l => l :: mapsMap l
  | .incl _ _ => []

@[inherit_doc maps]
def mapsSeq : List Node → List (List (Sc × Mark × Node))
  | [] => []
  | n :: ns => maps n ++ mapsSeq ns

@[inherit_doc maps]
def mapsMap : List (Sc × Mark × Node) → List (List (Sc × Mark × Node))
  | [] => []
  | (_, _, n) :: ns => maps n ++ mapsMap ns

end

/-- In a mapping the key `s` at `mark` repeats an earlier one. -/
def Repeats (l : List (Sc × Mark × Node)) (s : Sc) (mark : Mark) : Prop :=
  ∃ pre s' m' n' mid n post, l = pre ++ (s', m', n') :: mid ++ (s, mark, n) :: post ∧ s'.key = s.key

/-- `m` is included by a document, directly or through other files. -/
inductive Reaches (files : String → Option Doc) : Node → String → Prop
  | here {n : Node} {m : String} : m ∈ includes n → Reaches files n m
  | step {n d : Node} {m k : String} : m ∈ includes n → files m = some (.root d) → Reaches files d k → Reaches files n k

/-! ## Keys -/

theorem checkKeys_ok (file : String) (l : List (Sc × Mark × Node)) : ∀ seen : List Key,
    checkKeys file seen l = .ok () ↔
      KeysDiffer l ∧ ∀ e ∈ l, ∀ k ∈ seen, e.1.key ≠ some k := by
  induction l with
  | nil => intro seen; simp [checkKeys, KeysDiffer]
  | cons e t ih =>
    intro seen
    obtain ⟨s, m, n⟩ := e
    rw [checkKeys]
    rcases hk : s.key with _ | k
    · simp only [reduceCtorEq, false_iff, not_and]
      intro h
      exact absurd hk (h.1 _ (List.mem_cons_self ..))
    · dsimp only
      by_cases hm : k ∈ seen
      · rw [if_pos hm]
        simp only [reduceCtorEq, false_iff, not_and]
        intro _ h
        exact h _ (List.mem_cons_self ..) k hm hk
      · rw [if_neg hm, ih]
        constructor
        · rintro ⟨⟨h1, h2⟩, h3⟩
          refine ⟨⟨?_, ?_⟩, ?_⟩
          · intro e he
            rcases List.mem_cons.1 he with rfl | he
            · rw [hk]; simp
            · exact h1 e he
          · rw [List.map_cons, List.nodup_cons]
            refine ⟨fun hin => ?_, h2⟩
            obtain ⟨e, he, hek⟩ := List.mem_map.1 hin
            exact h3 e he k (by simp) (by rw [hek, hk])
          · intro e he k' hk'
            rcases List.mem_cons.1 he with rfl | he
            · rw [hk]
              intro h
              cases h
              exact hm hk'
            · exact h3 e he k' (by simp [hk'])
        · rintro ⟨⟨h1, h2⟩, h3⟩
          rw [List.map_cons, List.nodup_cons] at h2
          refine ⟨⟨fun e he => h1 e (by simp [he]), h2.2⟩, fun e he k' hk' => ?_⟩
          rcases List.mem_cons.1 hk' with rfl | hk'
          · intro h
            exact h2.1 (List.mem_map.2 ⟨e, he, by rw [h, hk]⟩)
          · exact h3 e (by simp [he]) k' hk'

theorem checkKeys_dup (file : String) (l : List (Sc × Mark × Node)) : ∀ (seen : List Key) (s : Sc) (f : String) (m : Mark),
    checkKeys file seen l = .error (.duplicate s f m) → f = file ∧
      (Repeats l s m ∨ ∃ k ∈ seen, s.key = some k ∧ ∃ n, (s, m, n) ∈ l) := by
  induction l with
  | nil => intro seen s f m h; simp [checkKeys] at h
  | cons e t ih =>
    intro seen s f m h
    obtain ⟨s0, m0, n0⟩ := e
    rw [checkKeys] at h
    rcases hk : s0.key with _ | k
    · rw [hk] at h; simp at h
    · rw [hk] at h
      dsimp only at h
      by_cases hm : k ∈ seen
      · rw [if_pos hm] at h
        simp only [Except.error.injEq, YErr.duplicate.injEq] at h
        obtain ⟨rfl, rfl, rfl⟩ := h
        exact ⟨rfl, .inr ⟨k, hm, hk, n0, by simp⟩⟩
      · rw [if_neg hm] at h
        obtain ⟨hf, h⟩ := ih _ _ _ _ h
        refine ⟨hf, ?_⟩
        rcases h with ⟨pre, s', m', n', mid, n, post, rfl, he⟩ | ⟨k', hk', hs, n, hn⟩
        · exact .inl ⟨(s0, m0, n0) :: pre, s', m', n', mid, n, post, rfl, he⟩
        · rcases List.mem_cons.1 hk' with rfl | hk'
          · obtain ⟨mid, post, rfl⟩ := List.append_of_mem hn
            exact .inl ⟨[], s0, m0, n0, mid, n, post, rfl, by rw [hk, hs]⟩
          · exact .inr ⟨k', hk', hs, n, by simp [hn]⟩

theorem checkKeys_error (file : String) (l : List (Sc × Mark × Node)) : ∀ (seen : List Key) (e : YErr),
    checkKeys file seen l = .error e → (∃ s f m, e = .duplicate s f m) ∨ ∃ m, e = .yaml (some m) := by
  induction l with
  | nil => intro seen e h; simp [checkKeys] at h
  | cons x t ih =>
    intro seen e h
    obtain ⟨s0, m0, n0⟩ := x
    rw [checkKeys] at h
    rcases hk : s0.key with _ | k
    · rw [hk] at h
      exact .inr ⟨m0, (Except.error.inj h).symm⟩
    · rw [hk] at h
      dsimp only at h
      by_cases hm : k ∈ seen
      · rw [if_pos hm] at h
        exact .inl ⟨_, _, _, (Except.error.inj h).symm⟩
      · rw [if_neg hm] at h
        exact ih _ _ h

theorem key_none (s : Sc) : s.key = none ↔ s = .merge := by
  cases s <;> simp [Sc.key]

theorem substMap_keys (sub : String → Node) (l : List (Sc × Mark × Node)) :
    KeysDiffer (substMap sub l) ↔ KeysDiffer l := by
  have : ∀ l, (substMap sub l).map (fun e => e.1) = l.map (fun e => e.1) := by
    intro l
    induction l with
    | nil => rfl
    | cons e t ih => obtain ⟨s, m, n⟩ := e; rw [substMap, List.map_cons, List.map_cons, ih]
  have h1 : ∀ l : List (Sc × Mark × Node), KeysDiffer l ↔
      (∀ s ∈ l.map (fun e => e.1), s.key ≠ none) ∧ ((l.map (fun e => e.1)).map Sc.key).Nodup := by
    intro l
    rw [KeysDiffer, List.map_map]
    simp [Function.comp_def]
  rw [h1, h1, this]

/-! ## Constructing -/

/-- The includes are constructed like what they stand for. -/
def Agrees (inc : String → Mark → Log → Except YErr (Val × Log)) (sub : String → Node) (names : List String) : Prop :=
  ∀ n ∈ names, ∀ mark log v, (∃ log', inc n mark log = .ok (v, log')) ↔ Good (sub n) ∧ v = shape (sub n)

mutual

theorem build_iff (inc : String → Mark → Log → Except YErr (Val × Log)) (file : String) (sub : String → Node) :
    ∀ (n : Node), Agrees inc sub (includes n) → ∀ (log : Log) (v : Val),
      (∃ log', build inc file n log = .ok (v, log')) ↔ Good (subst sub n) ∧ v = shape (subst sub n)
  | .scalar s m, _, log, v => by
    rw [build, subst, Good, shape]
    rcases hk : s.key with _ | k
    · have := (key_none s).1 hk
      simp [this]
    · have : s ≠ .merge := by
        rintro rfl
        simp [Sc.key] at hk
      simp [this, eq_comm]
  | .seq l, h, log, v => by
    have := buildSeq_iff inc file sub l h log
    rw [build, subst, Good, shape]
    rcases hb : buildSeq inc file l log with e | ⟨vs, log'⟩
    · rw [hb] at this
      simp only [Except.map, reduceCtorEq, exists_false, false_iff, not_and]
      intro hg
      have := (this (shapeSeq (substSeq sub l))).2 ⟨hg, rfl⟩
      simp at this
    · rw [hb] at this
      obtain ⟨h1, h2⟩ := (this vs).1 ⟨log', rfl⟩
      subst h2
      simp [Except.map, h1, eq_comm]
  | .map l, h, log, v => by
    have := buildMap_iff inc file sub l h log
    have hck := checkKeys_ok file l []
    rw [build, subst, Good, shape, substMap_keys]
    rcases hc : checkKeys file [] l with e | u
    · rw [hc] at hck
      simp only [reduceCtorEq, exists_false, false_iff, not_and]
      rintro ⟨hk, -⟩
      have := hck.2 ⟨hk, by simp⟩
      cases this
    · have hk := (hck.1 hc).1
      dsimp only
      rcases hb : buildMap inc file l log with e | ⟨vs, log'⟩
      · rw [hb] at this
        simp only [Except.map, reduceCtorEq, exists_false, false_iff, not_and]
        rintro ⟨-, hg⟩
        have := (this (shapeMap (substMap sub l))).2 ⟨hg, rfl⟩
        simp at this
      · rw [hb] at this
        obtain ⟨h1, h2⟩ := (this vs).1 ⟨log', rfl⟩
        subst h2
        simp [Except.map, h1, hk, eq_comm]
  | .incl n m, h, log, v => by
    rw [build, subst]
    exact h n (by simp [includes]) m log v

theorem buildSeq_iff (inc : String → Mark → Log → Except YErr (Val × Log)) (file : String) (sub : String → Node) :
    ∀ (l : List Node), Agrees inc sub (includesSeq l) → ∀ (log : Log) (vs : List Val),
      (∃ log', buildSeq inc file l log = .ok (vs, log')) ↔ GoodSeq (substSeq sub l) ∧ vs = shapeSeq (substSeq sub l)
  | [], _, log, vs => by
    rw [buildSeq, substSeq, GoodSeq, shapeSeq]
    simp [eq_comm]
  | n :: ns, h, log, vs => by
    have h1 := build_iff inc file sub n (fun m hm => h m (by simp [includesSeq, hm])) log
    rw [buildSeq, substSeq, GoodSeq, shapeSeq]
    rcases hb : build inc file n log with e | ⟨v, log'⟩
    · rw [hb] at h1
      simp only [reduceCtorEq, exists_false, false_iff, not_and]
      rintro ⟨hg, -⟩
      have := (h1 _).2 ⟨hg, rfl⟩
      simp at this
    · rw [hb] at h1
      obtain ⟨hg, hv⟩ := (h1 v).1 ⟨log', rfl⟩
      subst hv
      have h2 := buildSeq_iff inc file sub ns (fun m hm => h m (by simp [includesSeq, hm])) log'
      dsimp only
      rcases hs : buildSeq inc file ns log' with e | ⟨ws, log''⟩
      · rw [hs] at h2
        simp only [Except.map, reduceCtorEq, exists_false, false_iff, not_and]
        rintro ⟨-, hgs⟩
        have := (h2 _).2 ⟨hgs, rfl⟩
        simp at this
      · rw [hs] at h2
        obtain ⟨hgs, hvs⟩ := (h2 ws).1 ⟨log'', rfl⟩
        subst hvs
        simp [Except.map, hg, hgs, eq_comm]

theorem buildMap_iff (inc : String → Mark → Log → Except YErr (Val × Log)) (file : String) (sub : String → Node) :
    ∀ (l : List (Sc × Mark × Node)), Agrees inc sub (includesMap l) → ∀ (log : Log) (vs : List (Sc × Val)),
      (∃ log', buildMap inc file l log = .ok (vs, log')) ↔ GoodMap (substMap sub l) ∧ vs = shapeMap (substMap sub l)
  | [], _, log, vs => by
    rw [buildMap, substMap, GoodMap, shapeMap]
    simp [eq_comm]
  | (s, mk, n) :: ns, h, log, vs => by
    have h1 := build_iff inc file sub n (fun m hm => h m (by simp [includesMap, hm])) log
    rw [buildMap, substMap, GoodMap, shapeMap]
    rcases hb : build inc file n log with e | ⟨v, log'⟩
    · rw [hb] at h1
      simp only [reduceCtorEq, exists_false, false_iff, not_and]
      rintro ⟨hg, -⟩
      have := (h1 _).2 ⟨hg, rfl⟩
      simp at this
    · rw [hb] at h1
      obtain ⟨hg, hv⟩ := (h1 v).1 ⟨log', rfl⟩
      subst hv
      have h2 := buildMap_iff inc file sub ns (fun m hm => h m (by simp [includesMap, hm])) log'
      dsimp only
      rcases hs : buildMap inc file ns log' with e | ⟨ws, log''⟩
      · rw [hs] at h2
        simp only [Except.map, reduceCtorEq, exists_false, false_iff, not_and]
        rintro ⟨-, hgs⟩
        have := (h2 _).2 ⟨hgs, rfl⟩
        simp at this
      · rw [hs] at h2
        obtain ⟨hgs, hvs⟩ := (h2 ws).1 ⟨log'', rfl⟩
        subst hvs
        simp [Except.map, hg, hgs, eq_comm]

end

/-! ## Includes from a directory -/

/-- A set of files that include only each other, in an order: what each name stands for is its document with the includes
written out, `null` for an empty file. -/
def Closed (legal : String → Bool) (files : String → Option Doc) (sub : String → Node) (rank : String → ℕ)
    (S : String → Prop) : Prop :=
  ∀ n, S n → legal n = true ∧
    ((files n = some .empty ∧ sub n = .scalar .null (0, 0)) ∨
     ∃ d, files n = some (.root d) ∧ sub n = subst sub d ∧ ∀ m ∈ includes d, S m ∧ rank m < rank n)

theorem loadDoc_iff (legal : String → Bool) (files : String → Option Doc) (sub : String → Node) (rank : String → ℕ)
    (S : String → Prop) (hS : Closed legal files sub rank S) : ∀ (fuel : ℕ) (file : String) (n : Node),
    legal file = true → (∀ m ∈ includes n, S m ∧ rank m + 1 < fuel) → ∀ (log : Log) (v : Val),
    ((∃ log', loadDoc legal (some (.dir files)) fuel file (.root n) log = .ok (v, log')) ↔
      Good (subst sub n) ∧ v = shape (subst sub n)) ∨ fuel = 0 := by
  intro fuel
  induction fuel with
  | zero => intro file n _ _ log v; exact .inr rfl
  | succ f ih =>
    intro file n hl hn log v
    left
    rw [loadDoc, if_pos hl]
    refine build_iff _ file sub n ?_ log v
    intro m hm mark log1 w
    obtain ⟨hSm, hr⟩ := hn m hm
    obtain ⟨hlm, hc⟩ := hS m hSm
    have hf : f ≠ 0 := by omega
    rcases hc with ⟨he, hs⟩ | ⟨d, hd, hs, hin⟩
    · obtain ⟨g, rfl⟩ := Nat.exists_eq_succ_of_ne_zero hf
      dsimp only
      rw [he]
      dsimp only
      rw [loadDoc, if_pos hlm, hs, Good, shape]
      simp [eq_comm]
    · dsimp only
      rw [hd]
      dsimp only
      rw [hs]
      rcases ih m d hlm (fun k hk => ⟨(hin k hk).1, by have := (hin k hk).2; omega⟩) (m :: log1) w with h | h
      · exact h
      · exact absurd h hf

/-- **C97 (includes).** Reading a file whose includes are in a directory and do not go in circles gives a value exactly
when the document with all includes written out is a mapping in which no mapping has two equal keys; the value is what
that document says, whatever was read before. -/
theorem C97_includes (legal : String → Bool) (files : String → Option Doc) (sub : String → Node) (rank : String → ℕ)
    (S : String → Prop) (hS : Closed legal files sub rank S) (fuel : ℕ) (loader : Loader) (r : Request) (n : Node)
    (hdoc : r.doc = .root n) (hen : r.enable = true) (hdir : r.dir = some files) (hstr : r.streams = none)
    (hl : legal r.main = true) (hn : ∀ m ∈ includes n, S m ∧ rank m + 1 < fuel) (hfuel : fuel ≠ 0) (v : Val) :
    (readYaml legal fuel loader r).1 = .ok v ↔
      Good (subst sub n) ∧ v = shape (subst sub n) ∧ ∃ m, v = .map m := by
  have hp : r.place = some (.dir files) := by simp [Request.place, hdir, hstr]
  have hreg : loader.register r = ⟨some (.dir files), []⟩ := by simp [Loader.register, hen, hp]
  have key := fun v => (loadDoc_iff legal files sub rank S hS fuel r.main n hl hn [] v).resolve_right hfuel
  simp only [readYaml, hreg, hdoc]
  rcases hload : loadDoc legal (some (.dir files)) fuel r.main (.root n) [] with e | ⟨w, log⟩
  · rw [hload] at key
    have hno : ¬ Good (subst sub n) := by
      intro hg
      have := (key _).2 ⟨hg, rfl⟩
      simp at this
    constructor
    · intro h
      rcases e with _ | _ | _ | _ | _ | _ | _ <;> simp at h
    · rintro ⟨hg, -⟩
      exact absurd hg hno
  · rw [hload] at key
    obtain ⟨hg, hw⟩ := (key w).1 ⟨log, rfl⟩
    rw [← hw]
    rcases w with s | l | m
    · simp
      intro _ h x hx
      rw [h] at hx
      cases hx
    · simp
      intro _ h x hx
      rw [h] at hx
      cases hx
    · constructor
      · intro h
        have h : Val.map m = v := Except.ok.inj h
        exact ⟨hg, h.symm, m, h.symm⟩
      · rintro ⟨-, h, -⟩
        rw [h]

mutual

theorem subst_congr (f g : String → Node) : ∀ n : Node, (∀ m ∈ includes n, f m = g m) → subst f n = subst g n
  | .scalar _ _, _ => rfl
  | .seq l, h => by rw [subst, subst, substSeq_congr f g l h]
  | .map l, h => by rw [subst, subst, substMap_congr f g l h]
  | .incl n _, h => by rw [subst, subst, h n (by simp [includes])]

theorem substSeq_congr (f g : String → Node) : ∀ l : List Node, (∀ m ∈ includesSeq l, f m = g m) →
    substSeq f l = substSeq g l
  | [], _ => rfl
  | n :: ns, h => by
    rw [substSeq, substSeq, subst_congr f g n fun m hm => h m (by simp [includesSeq, hm]),
      substSeq_congr f g ns fun m hm => h m (by simp [includesSeq, hm])]

theorem substMap_congr (f g : String → Node) : ∀ l : List (Sc × Mark × Node), (∀ m ∈ includesMap l, f m = g m) →
    substMap f l = substMap g l
  | [], _ => rfl
  | (s, mk, n) :: ns, h => by
    rw [substMap, substMap, subst_congr f g n fun m hm => h m (by simp [includesMap, hm]),
      substMap_congr f g ns fun m hm => h m (by simp [includesMap, hm])]

end

/-- Writing includes out to some depth. -/
def writeOut (files : String → Option Doc) : ℕ → String → Node
  | 0, _ => .scalar .null (0, 0)
  | k + 1, n =>
    match files n with
    | some (.root d) => subst (writeOut files k) d
    | _ => .scalar .null (0, 0)

/-- **C97 (writing out).** Files that do not include each other in circles can be written out. -/
theorem C97_written_out (legal : String → Bool) (files : String → Option Doc) (rank : String → ℕ) (S : String → Prop)
    (h : ∀ n, S n → legal n = true ∧ (files n = some .empty ∨
      ∃ d, files n = some (.root d) ∧ ∀ m ∈ includes d, S m ∧ rank m < rank n)) :
    ∃ sub, Closed legal files sub rank S := by
  have stable : ∀ (r : ℕ) (n : String), S n → rank n = r → ∀ k, r + 1 ≤ k → writeOut files k n = writeOut files (r + 1) n := by
    intro r
    induction r using Nat.strong_induction_on with
    | _ r ih =>
      intro n hn hr k hk
      obtain ⟨k, rfl⟩ := Nat.exists_eq_succ_of_ne_zero (show k ≠ 0 by omega)
      rw [Nat.succ_eq_add_one, writeOut, writeOut]
      rcases (h n hn).2 with he | ⟨d, hd, hin⟩
      · simp [he]
      · simp only [hd]
        refine subst_congr _ _ d fun m hm => ?_
        obtain ⟨hSm, hlt⟩ := hin m hm
        rw [ih (rank m) (by omega) m hSm rfl k (by omega), ih (rank m) (by omega) m hSm rfl r (by omega)]
  refine ⟨fun n => writeOut files (rank n + 1) n, fun n hn => ?_⟩
  obtain ⟨hl, hc⟩ := h n hn
  refine ⟨hl, ?_⟩
  rcases hc with he | ⟨d, hd, hin⟩
  · exact .inl ⟨he, by simp [writeOut, he]⟩
  · refine .inr ⟨d, hd, ?_, hin⟩
    dsimp only
    rw [writeOut]
    simp only [hd]
    refine subst_congr _ _ d fun m hm => ?_
    obtain ⟨hSm, hlt⟩ := hin m hm
    exact stable (rank m) m hSm rfl (rank n) (by omega)

/-! ## Errors -/

mutual

/-- When a document is constructed, so are its includes. -/
theorem build_inc (inc : String → Mark → Log → Except YErr (Val × Log)) (file : String) :
    ∀ (n : Node) (log : Log) (r : Val × Log), build inc file n log = .ok r → ∀ m ∈ includes n,
      ∃ mark log1 r1, inc m mark log1 = .ok r1
  | .scalar s mk, log, r, _ => by simp [includes]
  | .seq l, log, r, h => by
    rw [build] at h
    rcases hb : buildSeq inc file l log with e | r1
    · rw [hb] at h; cases h
    · exact buildSeq_inc inc file l log r1 hb
  | .map l, log, r, h => by
    rw [build] at h
    rcases hc : checkKeys file [] l with e | u
    · rw [hc] at h; cases h
    · rw [hc] at h
      dsimp only at h
      rcases hb : buildMap inc file l log with e | r1
      · rw [hb] at h; cases h
      · exact buildMap_inc inc file l log r1 hb
  | .incl n mk, log, r, h => by
    rw [build] at h
    intro m hm
    rw [includes, List.mem_singleton] at hm
    subst hm
    exact ⟨mk, log, r, h⟩

theorem buildSeq_inc (inc : String → Mark → Log → Except YErr (Val × Log)) (file : String) :
    ∀ (l : List Node) (log : Log) (r : List Val × Log), buildSeq inc file l log = .ok r → ∀ m ∈ includesSeq l,
      ∃ mark log1 r1, inc m mark log1 = .ok r1
  | [], log, r, _ => by simp [includesSeq]
  | n :: ns, log, r, h => by
    rw [buildSeq] at h
    rcases hb : build inc file n log with e | ⟨v, log'⟩
    · rw [hb] at h; cases h
    · rw [hb] at h
      dsimp only at h
      rcases hs : buildSeq inc file ns log' with e | r1
      · rw [hs] at h; cases h
      · intro m hm
        rw [includesSeq, List.mem_append] at hm
        rcases hm with hm | hm
        · exact build_inc inc file n log _ hb m hm
        · exact buildSeq_inc inc file ns log' r1 hs m hm

theorem buildMap_inc (inc : String → Mark → Log → Except YErr (Val × Log)) (file : String) :
    ∀ (l : List (Sc × Mark × Node)) (log : Log) (r : List (Sc × Val) × Log), buildMap inc file l log = .ok r →
      ∀ m ∈ includesMap l, ∃ mark log1 r1, inc m mark log1 = .ok r1
  | [], log, r, _ => by simp [includesMap]
  | (s, mk, n) :: ns, log, r, h => by
    rw [buildMap] at h
    rcases hb : build inc file n log with e | ⟨v, log'⟩
    · rw [hb] at h; cases h
    · rw [hb] at h
      dsimp only at h
      rcases hs : buildMap inc file ns log' with e | r1
      · rw [hs] at h; cases h
      · intro m hm
        rw [includesMap, List.mem_append] at hm
        rcases hm with hm | hm
        · exact build_inc inc file n log _ hb m hm
        · exact buildMap_inc inc file ns log' r1 hs m hm

end

theorem loadDoc_reaches (legal : String → Bool) (files : String → Option Doc) (n : Node) (m : String)
    (hr : Reaches files n m) : ∀ (fuel : ℕ) (file : String) (log : Log) (r : Val × Log),
    loadDoc legal (some (.dir files)) fuel file (.root n) log = .ok r →
      legal m = true ∧ (files m = some .empty ∨ ∃ d, files m = some (.root d)) := by
  induction hr with
  | @here n m hm =>
    intro fuel file log r h
    cases fuel with
    | zero => cases h
    | succ f =>
      rw [loadDoc] at h
      by_cases hl : legal file = true
      · rw [if_pos hl] at h
        obtain ⟨mk, log1, r1, h1⟩ := build_inc _ file n log r h m hm
        dsimp only at h1
        rcases hf : files m with _ | d
        · rw [hf] at h1; cases h1
        · rw [hf] at h1
          dsimp only at h1
          cases f with
          | zero => cases h1
          | succ f =>
            rw [loadDoc.eq_def] at h1
            dsimp only at h1
            by_cases hlm : legal m = true
            · rw [if_pos hlm] at h1
              rcases d with mk' | _ | d
              · cases h1
              · exact ⟨hlm, .inl rfl⟩
              · exact ⟨hlm, .inr ⟨d, rfl⟩⟩
            · rw [if_neg hlm] at h1; cases h1
      · rw [if_neg hl] at h; cases h
  | @step n d m k hm hd _ ih =>
    intro fuel file log r h
    cases fuel with
    | zero => cases h
    | succ f =>
      rw [loadDoc] at h
      by_cases hl : legal file = true
      · rw [if_pos hl] at h
        obtain ⟨mk, log1, r1, h1⟩ := build_inc _ file n log r h m hm
        dsimp only at h1
        rw [hd] at h1
        exact ih f m _ r1 h1
      · rw [if_neg hl] at h; cases h

/-- **C97 (all files).** A file is only read when it has a legal name and all files that it includes, directly or through
others, exist, have legal names and no syntax errors. -/
theorem C97_all_files (legal : String → Bool) (files : String → Option Doc) (fuel : ℕ) (loader : Loader) (r : Request)
    (hen : r.enable = true) (hdir : r.dir = some files) (hstr : r.streams = none) (v : Val)
    (h : (readYaml legal fuel loader r).1 = .ok v) :
    legal r.main = true ∧ ∃ n, r.doc = .root n ∧
      ∀ m, Reaches files n m → legal m = true ∧ (files m = some .empty ∨ ∃ d, files m = some (.root d)) := by
  have hp : r.place = some (.dir files) := by simp [Request.place, hdir, hstr]
  have hreg : loader.register r = ⟨some (.dir files), []⟩ := by simp [Loader.register, hen, hp]
  simp only [readYaml, hreg] at h
  rcases hload : loadDoc legal (some (.dir files)) fuel r.main r.doc [] with e | ⟨w, log⟩
  · rw [hload] at h
    rcases e with _ | _ | _ | _ | _ | _ | _ <;> simp at h
  · have hl : legal r.main = true := by
      cases fuel with
      | zero => cases hload
      | succ f =>
        rw [loadDoc.eq_def] at hload
        dsimp only at hload
        by_contra hc
        rw [if_neg hc] at hload
        cases hload
    refine ⟨hl, ?_⟩
    rcases hd : r.doc with mk | _ | n
    · rw [hd] at hload
      cases fuel with
      | zero => cases hload
      | succ f => rw [loadDoc, if_pos hl] at hload; cases hload
    · rw [hload] at h
      rw [hd] at hload
      cases fuel with
      | zero => cases hload
      | succ f =>
        rw [loadDoc, if_pos hl] at hload
        cases Except.ok.inj hload
        simp at h
    · rw [hd] at hload
      exact ⟨n, rfl, fun m hm => loadDoc_reaches legal files n m hm fuel r.main [] _ hload⟩

mutual

/-- A duplicate key is in the document itself or comes from an include. -/
theorem build_dup (inc : String → Mark → Log → Except YErr (Val × Log)) (file : String) :
    ∀ (n : Node) (log : Log) (s : Sc) (f : String) (mk : Mark), build inc file n log = .error (.duplicate s f mk) →
      (f = file ∧ ∃ l ∈ maps n, Repeats l s mk) ∨
      ∃ m ∈ includes n, ∃ mark log1, inc m mark log1 = .error (.duplicate s f mk)
  | .scalar s0 mk0, log, s, f, mk, h => by
    rw [build] at h
    split at h <;> simp at h
  | .seq l, log, s, f, mk, h => by
    rw [build] at h
    rcases hb : buildSeq inc file l log with e | r1
    · rw [hb] at h
      cases Except.error.inj h
      exact buildSeq_dup inc file l log s f mk hb
    · rw [hb] at h; cases h
  | .map l, log, s, f, mk, h => by
    rw [build] at h
    rcases hc : checkKeys file [] l with e | u
    · rw [hc] at h
      cases Except.error.inj h
      obtain ⟨hf, hr⟩ := checkKeys_dup file l [] s f mk hc
      rcases hr with hr | ⟨k, hk, -⟩
      · exact .inl ⟨hf, l, by simp [maps], hr⟩
      · simp at hk
    · rw [hc] at h
      dsimp only at h
      rcases hb : buildMap inc file l log with e | r1
      · rw [hb] at h
        cases Except.error.inj h
        rcases buildMap_dup inc file l log s f mk hb with ⟨hf, l', hl', hr⟩ | hi
        · exact .inl ⟨hf, l', by simp [maps, hl'], hr⟩
        · exact .inr hi
      · rw [hb] at h; cases h
  | .incl n m, log, s, f, mk, h => by
    rw [build] at h
    exact .inr ⟨n, by simp [includes], m, log, h⟩

theorem buildSeq_dup (inc : String → Mark → Log → Except YErr (Val × Log)) (file : String) :
    ∀ (l : List Node) (log : Log) (s : Sc) (f : String) (mk : Mark), buildSeq inc file l log = .error (.duplicate s f mk) →
      (f = file ∧ ∃ l' ∈ mapsSeq l, Repeats l' s mk) ∨
      ∃ m ∈ includesSeq l, ∃ mark log1, inc m mark log1 = .error (.duplicate s f mk)
  | [], log, s, f, mk, h => by rw [buildSeq] at h; cases h
  | n :: ns, log, s, f, mk, h => by
    rw [buildSeq] at h
    rcases hb : build inc file n log with e | ⟨v, log'⟩
    · rw [hb] at h
      cases Except.error.inj h
      rcases build_dup inc file n log s f mk hb with ⟨hf, l', hl', hr⟩ | ⟨m, hm, hi⟩
      · exact .inl ⟨hf, l', by simp [mapsSeq, hl'], hr⟩
      · exact .inr ⟨m, by simp [includesSeq, hm], hi⟩
    · rw [hb] at h
      dsimp only at h
      rcases hs : buildSeq inc file ns log' with e | r1
      · rw [hs] at h
        cases Except.error.inj h
        rcases buildSeq_dup inc file ns log' s f mk hs with ⟨hf, l', hl', hr⟩ | ⟨m, hm, hi⟩
        · exact .inl ⟨hf, l', by simp [mapsSeq, hl'], hr⟩
        · exact .inr ⟨m, by simp [includesSeq, hm], hi⟩
      · rw [hs] at h; cases h

theorem buildMap_dup (inc : String → Mark → Log → Except YErr (Val × Log)) (file : String) :
    ∀ (l : List (Sc × Mark × Node)) (log : Log) (s : Sc) (f : String) (mk : Mark),
      buildMap inc file l log = .error (.duplicate s f mk) →
      (f = file ∧ ∃ l' ∈ mapsMap l, Repeats l' s mk) ∨
      ∃ m ∈ includesMap l, ∃ mark log1, inc m mark log1 = .error (.duplicate s f mk)
  | [], log, s, f, mk, h => by rw [buildMap] at h; cases h
  | (s0, m0, n) :: ns, log, s, f, mk, h => by
    rw [buildMap] at h
    rcases hb : build inc file n log with e | ⟨v, log'⟩
    · rw [hb] at h
      cases Except.error.inj h
      rcases build_dup inc file n log s f mk hb with ⟨hf, l', hl', hr⟩ | ⟨m, hm, hi⟩
      · exact .inl ⟨hf, l', by simp [mapsMap, hl'], hr⟩
      · exact .inr ⟨m, by simp [includesMap, hm], hi⟩
    · rw [hb] at h
      dsimp only at h
      rcases hs : buildMap inc file ns log' with e | r1
      · rw [hs] at h
        cases Except.error.inj h
        rcases buildMap_dup inc file ns log' s f mk hs with ⟨hf, l', hl', hr⟩ | ⟨m, hm, hi⟩
        · exact .inl ⟨hf, l', by simp [mapsMap, hl'], hr⟩
        · exact .inr ⟨m, by simp [includesMap, hm], hi⟩
      · rw [hs] at h; cases h

end

/-- The documents of a place. -/
def docs : Place → String → Option Doc
  | .dir f => f
  | .streams f => f

theorem loadDoc_dup (legal : String → Bool) (place : Place) : ∀ (fuel : ℕ) (file : String) (n : Node) (log : Log) (s : Sc)
    (f : String) (mk : Mark), loadDoc legal (some place) fuel file (.root n) log = .error (.duplicate s f mk) →
    (f = file ∧ ∃ l ∈ maps n, Repeats l s mk) ∨
    (Reaches (docs place) n f ∧ ∃ d, docs place f = some (.root d) ∧ ∃ l ∈ maps d, Repeats l s mk) := by
  intro fuel
  induction fuel with
  | zero => intro file n log s f mk h; simp [loadDoc] at h
  | succ g ih =>
    intro file n log s f mk h
    rw [loadDoc] at h
    by_cases hl : legal file = true
    · rw [if_pos hl] at h
      rcases build_dup _ file n log s f mk h with h1 | ⟨m, hm, mark, log1, hi⟩
      · exact .inl h1
      · right
        have key : ∃ d log2, docs place m = some (.root d) ∧
            loadDoc legal (some place) g m (.root d) log2 = .error (.duplicate s f mk) := by
          have plain : ∀ (d : Doc) (log2 : Log), loadDoc legal (some place) g m d log2 = .error (.duplicate s f mk) →
              ∃ d', d = .root d' := by
            intro d log2 hd
            cases g with
            | zero => simp [loadDoc] at hd
            | succ g =>
              rw [loadDoc.eq_def] at hd
              dsimp only at hd
              by_cases hlm : legal m = true
              · rw [if_pos hlm] at hd
                rcases d with _ | _ | d'
                · simp at hd
                · cases hd
                · exact ⟨d', rfl⟩
              · rw [if_neg hlm] at hd; simp at hd
          rcases place with files | files
          · dsimp only at hi
            rcases hf : files m with _ | d
            · rw [hf] at hi; simp at hi
            · rw [hf] at hi
              obtain ⟨d', rfl⟩ := plain _ _ hi
              exact ⟨d', _, hf, hi⟩
          · dsimp only at hi
            rcases hf : files m with _ | d
            · rw [hf] at hi; simp at hi
            · rw [hf] at hi
              dsimp only at hi
              by_cases hlog : m ∈ log1
              · rw [if_pos hlog] at hi
                obtain ⟨d', hd'⟩ := plain _ _ hi
                cases hd'
              · rw [if_neg hlog] at hi
                obtain ⟨d', rfl⟩ := plain _ _ hi
                exact ⟨d', _, hf, hi⟩
        obtain ⟨d, log2, hd, hld⟩ := key
        rcases ih m d log2 s f mk hld with ⟨rfl, h2⟩ | ⟨hr, h2⟩
        · exact ⟨.here hm, d, hd, h2⟩
        · exact ⟨.step hm hd hr, h2⟩
    · rw [if_neg hl] at h; simp at h

/-- **C97 (duplicate keys).** When a duplicate key is reported, the file named, which is the file read or one it includes,
has a mapping in which the key at the position given repeats an earlier one. -/
theorem C97_duplicate (legal : String → Bool) (place : Place) (fuel : ℕ) (loader : Loader) (r : Request) (n : Node)
    (hdoc : r.doc = .root n) (hen : r.enable = true) (hp : r.place = some place) (s : Sc) (f : String) (mk : Mark)
    (h : (readYaml legal fuel loader r).1 = .error (.duplicate s f mk)) :
    ∃ d, ((f = r.main ∧ d = n) ∨ (Reaches (docs place) n f ∧ docs place f = some (.root d))) ∧
      ∃ l ∈ maps d, Repeats l s mk := by
  have hreg : loader.register r = ⟨some place, []⟩ := by simp [Loader.register, hen, hp]
  simp only [readYaml, hreg, hdoc] at h
  have hload : loadDoc legal (some place) fuel r.main (.root n) [] = .error (.duplicate s f mk) := by
    rcases hload : loadDoc legal (some place) fuel r.main (.root n) [] with e | ⟨w, log⟩
    · rw [hload] at h
      rcases e with _ | _ | _ | _ | _ | _ | _ <;> simp at h ⊢
      exact h
    · rw [hload] at h
      rcases w with _ | _ | _ <;> simp at h
  rcases loadDoc_dup legal place fuel r.main n [] s f mk hload with ⟨hf, hl⟩ | ⟨hr, d, hd, hl⟩
  · exact ⟨n, .inl ⟨hf, rfl⟩, hl⟩
  · exact ⟨d, .inr ⟨hr, hd⟩, hl⟩

/-! ## Streams -/

/-- Constructing only adds to the log. -/
def Grows {α : Type} (log : Log) (r : Except YErr (α × Log)) : Prop := ∀ v log', r = .ok (v, log') → ∃ l, log' = l ++ log

mutual

theorem build_same (inc inc' : String → Mark → Log → Except YErr (Val × Log)) (file : String)
    (hg : ∀ m mark log, Grows log (inc m mark log))
    (hs : ∀ m mark log v log', inc m mark log = .ok (v, log') → log'.Nodup → inc' m mark log = .ok (v, log')) :
    ∀ (n : Node) (log : Log), Grows log (build inc file n log) ∧
      ∀ v log', build inc file n log = .ok (v, log') → log'.Nodup → build inc' file n log = .ok (v, log')
  | .scalar s mk, log => by
    simp only [build]
    constructor
    · intro v log' h
      split at h
      · cases h
      · cases Except.ok.inj h
        exact ⟨[], rfl⟩
    · intro v log' h _
      exact h
  | .seq l, log => by
    obtain ⟨h1, h2⟩ := buildSeq_same inc inc' file hg hs l log
    simp only [build]
    constructor
    · intro v log' h
      rcases hb : buildSeq inc file l log with e | ⟨vs, log1⟩
      · rw [hb] at h; cases h
      · rw [hb] at h
        cases Except.ok.inj h
        exact h1 vs _ hb
    · intro v log' h hn
      rcases hb : buildSeq inc file l log with e | ⟨vs, log1⟩
      · rw [hb] at h; cases h
      · rw [hb] at h
        cases Except.ok.inj h
        rw [h2 vs _ hb hn]
        rfl
  | .map l, log => by
    obtain ⟨h1, h2⟩ := buildMap_same inc inc' file hg hs l log
    simp only [build]
    rcases hc : checkKeys file [] l with e | u
    · exact ⟨fun v log' h => (by cases h), fun v log' h => (by cases h)⟩
    · dsimp only
      constructor
      · intro v log' h
        rcases hb : buildMap inc file l log with e | ⟨vs, log1⟩
        · rw [hb] at h; cases h
        · rw [hb] at h
          cases Except.ok.inj h
          exact h1 vs _ hb
      · intro v log' h hn
        rcases hb : buildMap inc file l log with e | ⟨vs, log1⟩
        · rw [hb] at h; cases h
        · rw [hb] at h
          cases Except.ok.inj h
          rw [h2 vs _ hb hn]
          rfl
  | .incl m mk, log => by
    simp only [build]
    exact ⟨hg m mk log, fun v log' h hn => hs m mk log v log' h hn⟩

theorem buildSeq_same (inc inc' : String → Mark → Log → Except YErr (Val × Log)) (file : String)
    (hg : ∀ m mark log, Grows log (inc m mark log))
    (hs : ∀ m mark log v log', inc m mark log = .ok (v, log') → log'.Nodup → inc' m mark log = .ok (v, log')) :
    ∀ (l : List Node) (log : Log), Grows log (buildSeq inc file l log) ∧
      ∀ v log', buildSeq inc file l log = .ok (v, log') → log'.Nodup → buildSeq inc' file l log = .ok (v, log')
  | [], log => by
    simp only [buildSeq]
    exact ⟨fun v log' h => by cases Except.ok.inj h; exact ⟨[], rfl⟩, fun v log' h _ => h⟩
  | n :: ns, log => by
    obtain ⟨h1, h2⟩ := build_same inc inc' file hg hs n log
    simp only [buildSeq]
    rcases hb : build inc file n log with e | ⟨v, log1⟩
    · exact ⟨fun v log' h => (by cases h), fun v log' h => (by cases h)⟩
    · obtain ⟨h3, h4⟩ := buildSeq_same inc inc' file hg hs ns log1
      obtain ⟨l1, hl1⟩ := h1 v log1 hb
      dsimp only
      rcases hbs : buildSeq inc file ns log1 with e | ⟨vs, log2⟩
      · exact ⟨fun v log' h => (by cases h), fun v log' h => (by cases h)⟩
      · obtain ⟨l2, hl2⟩ := h3 vs log2 hbs
        constructor
        · intro w log' h
          cases Except.ok.inj h
          exact ⟨l2 ++ l1, by rw [hl2, hl1, List.append_assoc]⟩
        · intro w log' h hn
          cases Except.ok.inj h
          dsimp only at hn
          have hn1 : log1.Nodup := by rw [hl2] at hn; exact (List.nodup_append.1 hn).2.1
          rw [h2 v log1 hb hn1]
          dsimp only
          rw [h4 vs log2 hbs hn]
          rfl

theorem buildMap_same (inc inc' : String → Mark → Log → Except YErr (Val × Log)) (file : String)
    (hg : ∀ m mark log, Grows log (inc m mark log))
    (hs : ∀ m mark log v log', inc m mark log = .ok (v, log') → log'.Nodup → inc' m mark log = .ok (v, log')) :
    ∀ (l : List (Sc × Mark × Node)) (log : Log), Grows log (buildMap inc file l log) ∧
      ∀ v log', buildMap inc file l log = .ok (v, log') → log'.Nodup → buildMap inc' file l log = .ok (v, log')
  | [], log => by
    simp only [buildMap]
    exact ⟨fun v log' h => by cases Except.ok.inj h; exact ⟨[], rfl⟩, fun v log' h _ => h⟩
  | (s, mk, n) :: ns, log => by
    obtain ⟨h1, h2⟩ := build_same inc inc' file hg hs n log
    simp only [buildMap]
    rcases hb : build inc file n log with e | ⟨v, log1⟩
    · exact ⟨fun v log' h => (by cases h), fun v log' h => (by cases h)⟩
    · obtain ⟨h3, h4⟩ := buildMap_same inc inc' file hg hs ns log1
      obtain ⟨l1, hl1⟩ := h1 v log1 hb
      dsimp only
      rcases hbs : buildMap inc file ns log1 with e | ⟨vs, log2⟩
      · exact ⟨fun v log' h => (by cases h), fun v log' h => (by cases h)⟩
      · obtain ⟨l2, hl2⟩ := h3 vs log2 hbs
        constructor
        · intro w log' h
          cases Except.ok.inj h
          exact ⟨l2 ++ l1, by rw [hl2, hl1, List.append_assoc]⟩
        · intro w log' h hn
          cases Except.ok.inj h
          dsimp only at hn
          have hn1 : log1.Nodup := by rw [hl2] at hn; exact (List.nodup_append.1 hn).2.1
          rw [h2 v log1 hb hn1]
          dsimp only
          rw [h4 vs log2 hbs hn]
          rfl

end

theorem loadDoc_same (legal : String → Bool) (files : String → Option Doc) : ∀ (fuel : ℕ) (file : String) (d : Doc) (log : Log),
    Grows log (loadDoc legal (some (.dir files)) fuel file d log) ∧
    ∀ v log', loadDoc legal (some (.dir files)) fuel file d log = .ok (v, log') → log'.Nodup →
      loadDoc legal (some (.streams files)) fuel file d log = .ok (v, log') := by
  intro fuel
  induction fuel with
  | zero =>
    intro file d log
    exact ⟨fun v log' h => (by cases h), fun v log' h => (by cases h)⟩
  | succ f ih =>
    intro file d log
    rw [loadDoc.eq_def, loadDoc.eq_def]
    dsimp only
    by_cases hl : legal file = true
    · rw [if_pos hl, if_pos hl]
      rcases d with mk | _ | n
      · exact ⟨fun v log' h => (by cases h), fun v log' h => (by cases h)⟩
      · exact ⟨fun v log' h => by cases Except.ok.inj h; exact ⟨[], rfl⟩, fun v log' h _ => h⟩
      · refine build_same _ _ file ?_ ?_ n log
        · intro m mark log1 v log2 h
          rcases hf : files m with _ | d
          · rw [hf] at h; cases h
          · rw [hf] at h
            obtain ⟨l, hl⟩ := (ih m d (m :: log1)).1 v log2 h
            exact ⟨l ++ [m], by rw [hl]; simp⟩
        · intro m mark log1 v log2 h hn
          rcases hf : files m with _ | d
          · rw [hf] at h; cases h
          · rw [hf] at h
            dsimp only at h ⊢
            obtain ⟨l, hl⟩ := (ih m d (m :: log1)).1 v log2 h
            have hm : m ∉ log1 := by
              rw [hl] at hn
              have := (List.nodup_append.1 hn).2.1
              exact (List.nodup_cons.1 this).1
            rw [if_neg hm]
            exact (ih m d (m :: log1)).2 v log2 h hn
    · rw [if_neg hl, if_neg hl]
      exact ⟨fun v log' h => (by cases h), fun v log' h => (by cases h)⟩

/-- **C97 (streams).** When no file is included more than once, reading it with its includes given as open streams gives
the same value as from a directory with these files. -/
theorem C97_streams (legal : String → Bool) (files : String → Option Doc) (fuel : ℕ) (loader loader' : Loader)
    (main : String) (doc : Doc) (dir : Option (String → Option Doc)) (v : Val)
    (h : (readYaml legal fuel loader ⟨main, doc, true, some files, none⟩).1 = .ok v)
    (honce : (readYaml legal fuel loader ⟨main, doc, true, some files, none⟩).2.log.Nodup) :
    (readYaml legal fuel loader' ⟨main, doc, true, dir, some files⟩).1 = .ok v := by
  have hreg : loader.register ⟨main, doc, true, some files, none⟩ = ⟨some (.dir files), []⟩ := by
    simp [Loader.register, Request.place]
  have hreg' : loader'.register ⟨main, doc, true, dir, some files⟩ = ⟨some (.streams files), []⟩ := by
    simp [Loader.register, Request.place]
  simp only [readYaml, hreg] at h honce
  simp only [readYaml, hreg']
  rcases hload : loadDoc legal (some (.dir files)) fuel main doc [] with e | ⟨w, log⟩
  · rw [hload] at h
    rcases e with _ | _ | _ | _ | _ | _ | _ <;> simp at h
  · rw [hload] at h honce
    rcases w with s | l | m
    · simp at h
    · simp at h
    · rw [(loadDoc_same legal files fuel main doc []).2 _ _ hload honce]
      exact h

mutual

/-- A document without includes is constructed as it stands. -/
theorem build_plain (inc : String → Mark → Log → Except YErr (Val × Log)) (file : String) : ∀ (n : Node) (log : Log),
    Good n → build inc file n log = .ok (shape n, log)
  | .scalar s mk, log, hg => by
    rw [Good] at hg
    rw [build]
    rcases hk : s.key with _ | k
    · exact absurd ((key_none s).1 hk) hg
    · rfl
  | .seq l, log, hg => by
    rw [Good] at hg
    rw [build, buildSeq_plain inc file l log hg, shape]
    rfl
  | .map l, log, hg => by
    rw [Good] at hg
    rw [build, (checkKeys_ok file l []).2 ⟨hg.1, by simp⟩]
    dsimp only
    rw [buildMap_plain inc file l log hg.2, shape]
    rfl
  | .incl m mk, log, hg => by
    rw [Good] at hg
    exact hg.elim

theorem buildSeq_plain (inc : String → Mark → Log → Except YErr (Val × Log)) (file : String) : ∀ (l : List Node) (log : Log),
    GoodSeq l → buildSeq inc file l log = .ok (shapeSeq l, log)
  | [], log, _ => by rw [buildSeq, shapeSeq]
  | n :: ns, log, hg => by
    rw [GoodSeq] at hg
    rw [buildSeq, build_plain inc file n log hg.1]
    dsimp only
    rw [buildSeq_plain inc file ns log hg.2, shapeSeq]
    rfl

theorem buildMap_plain (inc : String → Mark → Log → Except YErr (Val × Log)) (file : String) :
    ∀ (l : List (Sc × Mark × Node)) (log : Log),
    GoodMap l → buildMap inc file l log = .ok (shapeMap l, log)
  | [], log, _ => by rw [buildMap, shapeMap]
  | (s, mk, n) :: ns, log, hg => by
    rw [GoodMap] at hg
    rw [buildMap, build_plain inc file n log hg.1]
    dsimp only
    rw [buildMap_plain inc file ns log hg.2, shapeMap]
    rfl

end

/-- **C97, deviation (twice).** A file that is included a second time from streams is `null` there, whatever is in it. -/
theorem C97_twice (legal : String → Bool) (files : String → Option Doc) (fuel : ℕ) (loader : Loader) (main name : String)
    (n : Node) (hl : legal main = true) (hln : legal name = true) (hf : files name = some (.root n)) (hg : Good n)
    (k1 k2 : String) (m1 m2 m3 m4 : Mark) (hk : k1 ≠ k2) :
    (readYaml legal (fuel + 2) loader
      ⟨main, .root (.map [(.str k1, m1, .incl name m2), (.str k2, m3, .incl name m4)]), true, none, some files⟩).1 =
      .ok (.map [(.str k1, shape n), (.str k2, .scalar .null)]) ∧
    (readYaml legal (fuel + 2) loader
      ⟨main, .root (.map [(.str k1, m1, .incl name m2), (.str k2, m3, .incl name m4)]), true, some files, none⟩).1 =
      .ok (.map [(.str k1, shape n), (.str k2, shape n)]) := by
  have hbuild : ∀ inc log, build inc name n log = .ok (shape n, log) := fun inc log => build_plain inc name n log hg
  have hc : ∀ file, checkKeys file [] [(Sc.str k1, m1, Node.incl name m2), (Sc.str k2, m3, Node.incl name m4)] = .ok () := by
    intro file
    simp [checkKeys, Sc.key, Ne.symm hk]
  constructor
  · simp [readYaml, Loader.register, Request.place, loadDoc, hl, build, hc, buildMap, hf, hln, hbuild, Except.map]
  · simp [readYaml, Loader.register, Request.place, loadDoc, hl, build, hc, buildMap, hf, hln, hbuild, Except.map]

/-! ## Reading several files -/

/-- The loader after reading some files. -/
def readAll (legal : String → Bool) (fuel : ℕ) : Loader → List Request → Loader
  | l, [] => l
  | l, r :: rs => readAll legal fuel (readYaml legal fuel l r).2 rs

/-- **C97 (history).** What was read before does not matter for a file that is read with a place for its includes. -/
theorem C97_history (legal : String → Bool) (fuel : ℕ) (r : Request) (hen : r.enable = true) (hp : r.place ≠ none)
    (before before' : List Request) (l l' : Loader) :
    readYaml legal fuel (readAll legal fuel l before) r = readYaml legal fuel (readAll legal fuel l' before') r := by
  have hreg : ∀ l : Loader, l.register r = ⟨r.place, []⟩ := by
    intro l
    rw [Loader.register, if_pos ⟨hen, Option.isSome_iff_ne_none.2 hp⟩]
  simp only [readYaml, hreg]

/-- **C97 (no includes).** Nor for a file without includes. -/
theorem C97_history_plain (legal : String → Bool) (fuel : ℕ) (r : Request) (n : Node) (hdoc : r.doc = .root n)
    (hg : Good n) (before : List Request) (l : Loader) :
    (readYaml legal (fuel + 1) (readAll legal (fuel + 1) l before) r).1 =
      if legal r.main then
        match shape n with
        | .map m => .ok (.map m)
        | _ => .error (.yamlError none none)
      else .error (.illegalName r.main) := by
  simp only [readYaml, hdoc, loadDoc]
  by_cases hl : legal r.main = true
  · rw [if_pos hl, if_pos hl, build_plain _ _ n _ hg]
    rcases hs : shape n with s | s | s <;> rfl
  · rw [if_neg hl, if_neg hl]

/-- **C97, deviation (former place).** A file read with its includes switched off after another whose includes were taken
from a directory has its includes taken from there. -/
theorem C97_former_place (legal : String → Bool) (files : String → Option Doc) (fuel : ℕ) (l : Loader) (main other name : String)
    (n o : Node) (hm : legal main = true) (ho : legal other = true) (hn : legal name = true)
    (hf : files name = some (.root n)) (hg : Good n) (hgo : Good o) (k : String) (m1 m2 : Mark) :
    (readYaml legal (fuel + 2)
      (readAll legal (fuel + 2) l [⟨other, .root o, true, some files, none⟩])
      ⟨main, .root (.map [(.str k, m1, .incl name m2)]), false, none, none⟩).1 = .ok (.map [(.str k, shape n)]) ∧
    (readYaml legal (fuel + 2) ⟨none, []⟩ ⟨main, .root (.map [(.str k, m1, .incl name m2)]), false, none, none⟩).1 =
      .error (.yamlError (some main) (some m2)) := by
  have hplace : (readYaml legal (fuel + 2) l ⟨other, .root o, true, some files, none⟩).2.place = some (.dir files) := by
    simp only [readYaml, Loader.register, Request.place, loadDoc, ho, if_true, build_plain _ _ o _ hgo]
    rcases shape o with s | s | s <;> simp
  have hreg : ∀ l : Loader, l.register ⟨main, .root (.map [(.str k, m1, .incl name m2)]), false, none, none⟩ = l := by
    intro l
    simp [Loader.register]
  have hc : checkKeys main [] [(Sc.str k, m1, Node.incl name m2)] = .ok () := by
    simp [checkKeys, Sc.key]
  constructor
  · simp only [readAll]
    rw [readYaml]
    simp only [hreg, hplace]
    simp [loadDoc, hm, build, hc, buildMap, hf, hn, build_plain _ _ n _ hg, Except.map]
  · rw [readYaml]
    simp only [hreg]
    simp [loadDoc, hm, build, hc, buildMap, Except.map]

/-! ## Roots, errors of included files, circles -/

/-- **C97 (root).** What is read is a mapping; a file that is empty or has another root is refused. -/
theorem C97_root (legal : String → Bool) (fuel : ℕ) (l : Loader) (r : Request) :
    (∀ v, (readYaml legal fuel l r).1 = .ok v → ∃ m, v = .map m) ∧
    (legal r.main = true → r.doc = .empty → (readYaml legal (fuel + 1) l r).1 = .error (.yamlError none none)) ∧
    (∀ n, legal r.main = true → r.doc = .root n → Good n → (∀ m, shape n ≠ .map m) →
      (readYaml legal (fuel + 1) l r).1 = .error (.yamlError none none)) := by
  refine ⟨?_, ?_, ?_⟩
  · intro v h
    simp only [readYaml] at h
    split at h
    · exact ⟨_, (Except.ok.inj h).symm⟩
    all_goals cases h
  · intro hl hd
    simp [readYaml, hd, loadDoc, hl]
  · intro n hl hd hg hs
    have := C97_history_plain legal fuel r n hd hg [] l
    simp only [readAll] at this
    rw [this, if_pos hl]

/-- **C97, deviation (wrong file).** A syntax error in an included file is reported as one in the file that is read. -/
theorem C97_wrong_file (legal : String → Bool) (files : String → Option Doc) (fuel : ℕ) (l : Loader) (main name : String)
    (hm : legal main = true) (hn : legal name = true) (mark : Mark) (hf : files name = some (.bad mark)) (k : String)
    (m1 m2 : Mark) :
    (readYaml legal (fuel + 2) l ⟨main, .root (.map [(.str k, m1, .incl name m2)]), true, some files, none⟩).1 =
      .error (.yamlError (some main) (some mark)) := by
  simp [readYaml, Loader.register, Request.place, loadDoc, hm, build, checkKeys, Sc.key, buildMap, hf, hn, Except.map]

/-- **C97 (merge keys).** A mapping with a merge key, which is what an anchor is merged with, is refused. -/
theorem C97_merge (legal : String → Bool) (fuel : ℕ) (l : Loader) (r : Request) (e : List (Sc × Mark × Node)) (mark : Mark)
    (n : Node) (hdoc : r.doc = .root (.map ((.merge, mark, n) :: e))) (hl : legal r.main = true) :
    (readYaml legal (fuel + 1) l r).1 = .error (.yamlError (some r.main) (some mark)) := by
  simp [readYaml, hdoc, loadDoc, hl, build, checkKeys, Sc.key]

/-- A set of files of which each includes another one of the set. -/
def Circle (files : String → Option Doc) (S : String → Prop) : Prop :=
  ∀ m, S m → ∃ d, files m = some (.root d) ∧ ∃ k ∈ includes d, S k

theorem loadDoc_circle (legal : String → Bool) (files : String → Option Doc) (S : String → Prop) (hS : Circle files S) :
    ∀ (fuel : ℕ) (file : String) (n : Node) (log : Log), (∃ k ∈ includes n, S k) → ∀ r,
      loadDoc legal (some (.dir files)) fuel file (.root n) log ≠ .ok r := by
  intro fuel
  induction fuel with
  | zero => intro file n log _ r h; cases h
  | succ f ih =>
    rintro file n log ⟨k, hk, hSk⟩ r h
    rw [loadDoc] at h
    by_cases hl : legal file = true
    · rw [if_pos hl] at h
      obtain ⟨mk, log1, r1, h1⟩ := build_inc _ file n log r h k hk
      dsimp only at h1
      obtain ⟨d, hd, hin⟩ := hS k hSk
      rw [hd] at h1
      exact ih k d _ hin r1 h1
    · rw [if_neg hl] at h; cases h

/-- **C97 (circles).** A file that includes, directly or through others, a file of a circle is never read. -/
theorem C97_circular (legal : String → Bool) (files : String → Option Doc) (S : String → Prop) (hS : Circle files S)
    (fuel : ℕ) (l : Loader) (r : Request) (hen : r.enable = true) (hdir : r.dir = some files) (hstr : r.streams = none)
    (n : Node) (hdoc : r.doc = .root n) (k : String) (hk : Reaches files n k) (hSk : S k) (v : Val) :
    (readYaml legal fuel l r).1 ≠ .ok v := by
  intro h
  have hp : r.place = some (.dir files) := by simp [Request.place, hdir, hstr]
  have hreg : l.register r = ⟨some (.dir files), []⟩ := by simp [Loader.register, hen, hp]
  simp only [readYaml, hreg, hdoc] at h
  rcases hload : loadDoc legal (some (.dir files)) fuel r.main (.root n) [] with e | ⟨w, log⟩
  · rw [hload] at h
    rcases e with _ | _ | _ | _ | _ | _ | _ <;> simp at h
  · -- with the file itself and the files on the way, the circle is a larger one
    have hS' : Circle files (fun m => S m ∨ ∃ d, files m = some (.root d) ∧ ∃ k, Reaches files d k ∧ S k) := by
      rintro m (hm | ⟨d, hd, k, hr, hk⟩)
      · obtain ⟨d, hd, k, hk, hSk⟩ := hS m hm
        exact ⟨d, hd, k, hk, .inl hSk⟩
      · refine ⟨d, hd, ?_⟩
        cases hr with
        | here hm' => exact ⟨k, hm', .inl hk⟩
        | @step _ d' m' _ hm' hd' hr' => exact ⟨m', hm', .inr ⟨d', hd', k, hr', hk⟩⟩
    have : ∃ k ∈ includes n, S k ∨ ∃ d, files k = some (.root d) ∧ ∃ k', Reaches files d k' ∧ S k' := by
      cases hk with
      | here hm' => exact ⟨k, hm', .inl hSk⟩
      | @step _ d' m' _ hm' hd' hr' => exact ⟨m', hm', .inr ⟨d', hd', k, hr', hSk⟩⟩
    exact loadDoc_circle legal files _ hS' fuel r.main n [] this _ hload

/-! ## Examples -/

/-- A directory with two files, of which one includes the other. -/
def sampleDir : String → Option Doc
  | "facilities.yml" => some (.root (.seq [.map [(.str "NAME", (1, 3), .scalar (.str "genset") (1, 9)),
      (.str "FILE", (2, 3), .incl "deep.yml" (2, 9))]]))
  | "deep.yml" => some (.root (.scalar (.str "genset.csv") (1, 1)))
  | "bad.yml" => some (.bad (7, 2))
  | "twice.yml" => some (.root (.map [(.str "A", (1, 1), .scalar (.num 1) (1, 4)), (.str "A", (2, 1), .scalar (.num 2) (2, 4))]))
  | "self.yml" => some (.root (.map [(.str "A", (1, 1), .incl "self.yml" (1, 4))]))
  | _ => none

/-- A main file with one include. -/
def sampleMain (name : String) : Doc :=
  .root (.map [(.str "FACILITY_INPUTS", (1, 1), .incl name (1, 18)), (.str "START", (2, 1), .scalar (.date 2020) (2, 8))])

example : (readYaml (fun _ => true) 5 ⟨none, []⟩ ⟨"model.yml", sampleMain "facilities.yml", true, some sampleDir, none⟩).1 =
    .ok (.map [(.str "FACILITY_INPUTS", .seq [.map [(.str "NAME", .scalar (.str "genset")),
      (.str "FILE", .scalar (.str "genset.csv"))]]), (.str "START", .scalar (.date 2020))]) := by
  rfl

example : (readYaml (fun _ => true) 5 ⟨none, []⟩ ⟨"model.yml", sampleMain "twice.yml", true, some sampleDir, none⟩).1 =
    .error (.duplicate (.str "A") "twice.yml" (2, 1)) := by
  rfl

example : (readYaml (fun _ => true) 5 ⟨none, []⟩ ⟨"model.yml", sampleMain "bad.yml", true, some sampleDir, none⟩).1 =
    .error (.yamlError (some "model.yml") (some (7, 2))) := by
  rfl

example : (readYaml (fun _ => true) 5 ⟨none, []⟩ ⟨"model.yml", sampleMain "missing.yml", true, some sampleDir, none⟩).1 =
    .error (.fileNotFound "missing.yml") := by
  rfl

example : Circle sampleDir (· = "self.yml") := by
  rintro m rfl
  exact ⟨_, rfl, "self.yml", by simp [includes, includesMap], rfl⟩

example : (readYaml (fun _ => true) 9 ⟨none, []⟩ ⟨"model.yml", sampleMain "self.yml", true, some sampleDir, none⟩).1 =
    .error .recursion := by
  rfl

end Verif.C97
