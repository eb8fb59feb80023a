import Verif.Model.Cache

/-!
# Model of the life of the Java service

`src/ecalc_neqsim_wrapper/java_service.py` with the caches of `cache_service.py` (modelled in `Verif.Model.Cache`) and
the way `fluid_service.py` uses them.

A method call is one step. Whether the gateway can be launched and whether its `shutdown` raises are inputs of the
step. What Java computes is a parameter: an answer for each cache, virtual machine and key. A Python object is its
position among the objects created so far, a Java process its position among the processes started. The virtual machine
of JPype is that of the Python process and is not counted as a process. Logging is left out.
-/

namespace Verif.Java
open Verif.Cache

/-- What a call may raise. -/
inductive Err where
  /-- `RuntimeError`. -/
  | runtime
  /-- `ProgrammingError`. -/
  | programming
  /-- `NeqsimGatewayError`. -/
  | gateway
  /-- `ValueError`. -/
  | value
  /-- `KeyError`. -/
  | key
  /-- The object does not exist: not a call that can be made. -/
  | nobody
  deriving DecidableEq, Repr

/-- `^\d+[kKmMgGtT]` up to the end of the text; `digit` are the characters of `\d`. -/
def amount (digit : Char → Bool) (s : List Char) : Bool :=
  match s.reverse with
  | c :: ds => c ∈ "kKmMgGtT".toList && ds ≠ [] && ds.all digit
  | [] => false

/-- `_MEMORY_PATTERN.match` (java_service.py:34): the dollar also matches before a newline at the end. -/
def matches? (digit : Char → Bool) (s : List Char) : Bool :=
  amount digit s || (s.getLast? = some '\n' && amount digit s.dropLast)

/-- `Py4JConfig` (java_service.py:17-38). -/
structure Config where
  memory : List Char
  shutdownOnExit : Bool
  deriving DecidableEq, Repr

/-- `Py4JConfig(...)` with `__post_init__` (java_service.py:36-44). -/
def Config.make (digit : Char → Bool) (memory : List Char) (shutdownOnExit : Bool) : Except Err Config :=
  if matches? digit memory then .ok ⟨memory, shutdownOnExit⟩ else .error .value

/-- `Py4JConfig.default` (java_service.py:36-49). -/
def Config.default : Config := ⟨"2G".toList, true⟩

/-- `NeqsimJPypeService`, `NeqsimPy4JService`. -/
inductive Kind where
  | jpype | py4j
  deriving DecidableEq, Repr

/-- A Java virtual machine: that of the Python process, or a process of its own. -/
inductive Jvm where
  | inner
  | process (pid : Nat)
  deriving DecidableEq, Repr

/-- A service object; `gateway` is its `_gateway`, a process. -/
structure Inst where
  kind : Kind
  config : Config
  gateway : Option Nat
  deriving DecidableEq, Repr

/-- A Java process: its maximum memory, and whether it runs. -/
structure Process where
  memory : List Char
  alive : Bool
  deriving DecidableEq, Repr

/-- The global state: the objects made so far, `_neqsim_service`, `_py4j_config`, the processes started and
`CacheService._caches`. -/
structure World (κ ν : Type) where
  insts : List Inst
  service : Option Nat
  config : Option Config
  procs : List Process
  caches : Registry κ ν

/-- The state at import. -/
def World.start {κ ν : Type} : World κ ν := ⟨[], none, none, [], []⟩

/-- What can be called. -/
inductive Op (κ : Type) where
  /-- `configure_py4j`. -/
  | configure (c : Config)
  /-- `reset_py4j_config`. -/
  | reset
  /-- `initialize`, with whether a gateway can be launched. -/
  | init (k : Kind) (launches : Bool)
  /-- `__exit__` of an object, with whether `shutdown` of a gateway raises. -/
  | exit (h : Nat) (fails : Bool)
  /-- `shutdown` of an object, with whether `shutdown` of a gateway raises. -/
  | shutdown (h : Nat) (fails : Bool)
  /-- `instance`. -/
  | current
  /-- `CacheService.create_cache`. -/
  | create (name : String) (size : Nat)
  /-- Look up something in a cache, otherwise compute it with Java and store it. -/
  | find (name : String) (key : κ)

/-- What a call returns. -/
inductive Out (ν : Type) where
  | done
  | object (h : Nat)
  | value (v : ν)
  deriving DecidableEq, Repr

variable {κ ν : Type} [DecidableEq κ]

/-- `NeqsimService.configure_py4j` (java_service.py:97-124). -/
def configure (w : World κ ν) (c : Config) : World κ ν × Except Err (Out ν) :=
  if w.service.isSome then (w, .error .runtime) else ({ w with config := some c }, .ok .done)

/-- `NeqsimPy4JService.__new__` (java_service.py:237-247) with `_start_server` (java_service.py:71-90), then
`_neqsim_service = ...`. -/
def startPy4j (w : World κ ν) (launches : Bool) : World κ ν × Except Err (Out ν) :=
  let config := w.config.getD Config.default
  if launches then
    ({ w with
        insts := w.insts ++ [⟨.py4j, config, some w.procs.length⟩]
        procs := w.procs ++ [⟨config.memory, true⟩]
        service := some w.insts.length }, .ok (.object w.insts.length))
  else (w, .error .gateway)

/-- `NeqsimJPypeService.__new__` (java_service.py:182-184), then `_neqsim_service = ...`. -/
def startJpype (w : World κ ν) : World κ ν × Except Err (Out ν) :=
  ({ w with insts := w.insts ++ [⟨.jpype, Config.default, none⟩], service := some w.insts.length },
    .ok (.object w.insts.length))

/-- `initialize` (java_service.py:186-202, 249-263). -/
def init (w : World κ ν) (k : Kind) (launches : Bool) : World κ ν × Except Err (Out ν) :=
  match w.service with
  | none =>
    match k with
    | .jpype => startJpype w
    | .py4j => startPy4j w launches
  | some i =>
    match w.insts[i]? with
    | some x => if x.kind = k then (w, .ok (.object i)) else (w, .error .programming)
    | none => (w, .error .nobody)

/-- The gateway of the current service, if that is of the kind with a gateway (java_service.py:292-294). -/
def currentGateway (w : World κ ν) : Option (Nat × Inst × Nat) :=
  match w.service with
  | none => none
  | some i =>
    match w.insts[i]? with
    | some ⟨.py4j, c, some p⟩ => some (i, ⟨.py4j, c, some p⟩, p)
    | _ => none

/-- The `try` block of `shutdown` (java_service.py:291-297): the process of the current service ends. -/
def endGateway (w : World κ ν) (fails : Bool) : World κ ν :=
  match currentGateway w with
  | some (i, x, p) =>
    if fails then w
    else
      { w with
        insts := w.insts.set i { x with gateway := none }
        procs := w.procs.modify p fun q => { q with alive := false } }
  | none => w

/-- `shutdown` (java_service.py:226-228, 277-300). -/
def shutdown (w : World κ ν) (h : Nat) (fails : Bool) : World κ ν × Except Err (Out ν) :=
  match w.insts[h]? with
  | none => (w, .error .nobody)
  | some x =>
    match x.kind with
    | .jpype => ({ w with caches := w.caches.clearAll }, .ok .done)
    | .py4j =>
      if x.gateway = none then (w, .ok .done)
      else ({ endGateway { w with caches := w.caches.clearAll } fails with service := none }, .ok .done)

/-- `__exit__` (java_service.py:212-224, 268-272). -/
def exit (w : World κ ν) (h : Nat) (fails : Bool) : World κ ν × Except Err (Out ν) :=
  match w.insts[h]? with
  | none => (w, .error .nobody)
  | some x =>
    match x.kind with
    | .jpype => (w, .ok .done)
    | .py4j => if x.config.shutdownOnExit then shutdown w h fails else (w, .ok .done)

/-- `NeqsimService.instance` (java_service.py:138-147). -/
def instance? (w : World κ ν) : Except Err (Out ν) :=
  match w.service with
  | none => .error .programming
  | some i => .ok (.object i)

/-- `NeqsimService.instance().get_neqsim_module()` (java_service.py:138-147, 204-207, 274-275); a closed gateway has no
`jvm`. -/
def module? (w : World κ ν) : Except Err Jvm :=
  match w.service with
  | none => .error .programming
  | some i =>
    match w.insts[i]? with
    | some ⟨.jpype, _, _⟩ => .ok .inner
    | some ⟨.py4j, _, some p⟩ => .ok (.process p)
    | _ => .error .nobody

/-- `create_cache` (cache_service.py:135-156). -/
def create (w : World κ ν) (name : String) (size : Nat) : World κ ν × Except Err (Out ν) :=
  ({ w with caches := (w.caches.create name size).1 }, .ok .done)

/-- Looking up in a cache, and computing and storing if it is not there, as in fluid_service.py:166-203. -/
def find (answer : String → Jvm → κ → ν) (w : World κ ν) (name : String) (key : κ) : World κ ν × Except Err (Out ν) :=
  match w.caches.lookup name with
  | none => (w, .error .key)
  | some c =>
    let r := c.get key
    let w' := { w with caches := w.caches.modify name fun _ => r.1 }
    match r.2 with
    | some v => (w', .ok (.value v))
    | none =>
      match module? w with
      | .error e => (w', .error e)
      | .ok j =>
        match (r.1.put key (answer name j key)).2 with
        | .error _ => (w', .error .key)
        | .ok _ =>
          ({ w with caches := w.caches.modify name fun _ => (r.1.put key (answer name j key)).1 },
            .ok (.value (answer name j key)))

/-- One call. -/
def step (answer : String → Jvm → κ → ν) (w : World κ ν) : Op κ → World κ ν × Except Err (Out ν)
  | .configure c => configure w c
  | .reset => ({ w with config := none }, .ok .done)
  | .init k launches => init w k launches
  | .exit h fails => exit w h fails
  | .shutdown h fails => shutdown w h fails
  | .current => (w, instance? w)
  | .create name size => create w name size
  | .find name key => find answer w name key

/-- Calls one after the other: the state after them and what each returned. -/
def run (answer : String → Jvm → κ → ν) (w : World κ ν) : List (Op κ) → World κ ν × List (Except Err (Out ν))
  | [] => (w, [])
  | op :: ops =>
    let r := step answer w op
    let rest := run answer r.1 ops
    (rest.1, r.2 :: rest.2)

end Verif.Java
