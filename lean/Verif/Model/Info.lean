import Verif.Model.Pool

/-!
# What the pool tells about itself

`Pool::info` and `Debug for Pool`, /repo/src/pool/mod.rs:108-129 and 178-185.
-/

namespace CH.Pool

/-- `PoolInfo`, /repo/src/pool/mod.rs:108-114. -/
structure PoolInfo where
  newLen : Nat
  idleLen : Nat
  tasksLen : Nat
  ongoing : Nat
deriving DecidableEq, Repr

/-- `Pool::info`, /repo/src/pool/mod.rs:178-185: four accesses to the shared state, one after the other, each of which finds the
pool in a state of its own if other threads use it meanwhile. `len` of a queue is taken to be one access (crossbeam repeats its
reads until they are consistent). -/
def info (s1 s2 s3 s4 : St) : PoolInfo := ⟨s1.new.toList.length, s2.idle.length, s3.tasks.length, s4.ongoing⟩

/-- One `field` of `debug_struct`, /repo/src/pool/mod.rs:120-125, without the separator before it, and the rest of the text. -/
def debugField (name : String) (n : Nat) (rest : Str) : Str := name.toList ++ (": ".toList ++ (natChars n ++ rest))

/-- `Debug for Pool`, /repo/src/pool/mod.rs:116-129, as printed by `{:?}`. -/
def debugPool (cfg : Cfg) (i : PoolInfo) : Str :=
  debugField "Pool { min" cfg.min <| debugField ", max" cfg.max <| debugField ", new connections count" i.newLen <|
    debugField ", idle connections count" i.idleLen <| debugField ", tasks count" i.tasksLen <|
    debugField ", ongoing connections count" i.ongoing " }".toList

end CH.Pool
