import Verif.Execution.Caches

/-!
# Execution without caches

Of the model only the types and the names of the services are used.
-/

namespace Silkworm.Spec.Caches

open Evm

/-- What is run for a code if nothing is remembered from earlier: the exogenous EVM if there is one, otherwise the advanced
interpreter with a new analysis, or the baseline interpreter. -/
def program {A : Type} (engine : Engine A) (advanced : Bool) (revision : Nat) (msg : Message) (code : Bytes) : Program :=
  match engine.exo with
  | some exo => exo revision msg code
  | none => if advanced then engine.run (engine.analyze revision code) revision msg code else engine.baseline revision msg code

/-- A program returns nothing but byte strings of a set, whatever the host answers. -/
inductive Returns (S : Bytes → Prop) : Program → Prop
  | done (r : Result) (h : S r.output) : Returns S (.done r)
  | ask (c : HostCall) (next : c.Answer → Program) (h : ∀ a, Returns S (next a)) : Returns S (.ask c next)

/-- A set of byte strings without collisions that contains whatever is returned by the interpreters. -/
structure Universe {A : Type} (engine : Engine A) (keccak : Bytes → Bytes) (S : Bytes → Prop) : Prop where
  injective : ∀ c d, S c → S d → keccak c = keccak d → c = d
  run : ∀ rev msg code, Returns S (engine.run (engine.analyze rev code) rev msg code)
  baseline : ∀ rev msg code, Returns S (engine.baseline rev msg code)
  exo : ∀ f, engine.exo = some f → ∀ rev msg code, Returns S (f rev msg code)

/-- What is stored under a hash is missing, empty, or the code with this hash, in the database and in the state. -/
structure Consistent (keccak : Bytes → Bytes) (S : Bytes → Prop) (db : StateReader) (s : IntraBlockState) : Prop where
  db : ∀ h, db.readCode h ≠ [] → S (db.readCode h) ∧ keccak (db.readCode h) = h
  state : ∀ h c, s.code.get? h = some c → c ≠ [] → S c ∧ keccak c = h

/-- One use of the EVM by whoever owns the caches. -/
structure Use where
  env : Env
  txn : Transaction
  gas : Nat
  machine : Machine

/-- The results with caches, one use after the other. -/
def withCaches {A : Type} (engine : Engine A) : List Use → Caches A → Outcome Fault (List (CallResult × Machine) × Caches A)
  | [], k => .ok ([], k)
  | u :: rest, k =>
    (executeC engine u.env u.txn u.gas u.machine k).bind fun r =>
      (withCaches engine rest r.2.2).bind fun l => .ok ((r.1, r.2.1) :: l.1, l.2)

/-- The results with the interpreters of the environments, which remember nothing. -/
def withoutCaches : List Use → Outcome Fault (List (CallResult × Machine))
  | [] => .ok []
  | u :: rest =>
    (execute u.env u.txn u.gas u.machine).bind fun r => (withoutCaches rest).bind fun l => .ok (r :: l)

end Silkworm.Spec.Caches
