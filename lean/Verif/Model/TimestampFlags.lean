import Verif.Basic
/-!
# Model of `/repo/include/routingkit/timestamp_flag.h`
-/
namespace RK

/-- timestamp_flag.h:35-36, the data members; both hold `unsigned short` values. -/
structure TimestampFlags where
  lastSeen : List Nat
  currentTimestamp : Nat
deriving Repr, DecidableEq

namespace TimestampFlags

/-- Number of values of a 16-bit `unsigned short`. -/
def u16 : Nat := 65536

/-- timestamp_flag.h:12 constructor. -/
def new (idCount : Nat) : TimestampFlags :=
  { lastSeen := List.replicate idCount 0, currentTimestamp := 1 }

/-- timestamp_flag.h:14-16 `is_set`. -/
def isSet (f : TimestampFlags) (id : Nat) : Option Bool := do
  let x ← rd f.lastSeen id
  some (x == f.currentTimestamp)

/-- timestamp_flag.h:18-20 `set`. -/
def set (f : TimestampFlags) (id : Nat) : Option TimestampFlags := do
  let l ← wr f.lastSeen id f.currentTimestamp
  some { f with lastSeen := l }

/-- timestamp_flag.h:22-24 `reset_one`; the difference is computed in `int` and truncated to 16 bits. -/
def resetOne (f : TimestampFlags) (id : Nat) : Option TimestampFlags := do
  let l ← wr f.lastSeen id ((f.currentTimestamp + u16 - 1) % u16)
  some { f with lastSeen := l }

/-- timestamp_flag.h:26-32 `reset_all`. -/
def resetAll (f : TimestampFlags) : TimestampFlags :=
  let t := (f.currentTimestamp + 1) % u16
  if t = 0 then
    { lastSeen := List.replicate f.lastSeen.length 0, currentTimestamp := 1 }
  else
    { f with currentTimestamp := t }

end TimestampFlags
end RK
