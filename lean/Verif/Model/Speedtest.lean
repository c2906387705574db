import Verif.Model.OsmFile
import Verif.Model.TextIO
/-! # `speedtest_osm_pbf_reading` (`/repo/src/osm_decoder.cpp:719-762`) -/
namespace RK
open Osm

/-- osm_decoder.cpp:725-729, the variables, and the messages so far. The counters have 64 bits; here they are unbounded, as
no file has so many objects. -/
structure SpeedState where
  nodes : Nat
  ways : Nat
  relations : Nat
  lastReport : Int
  log : List Text

/-- `std::setw(9)` followed by a number. -/
def setw9 (n : Nat) : Text := List.replicate (9 - (printNat n).length) ' ' ++ printNat n

/-- osm_decoder.cpp:731-742 `produce_report`; `now` is the result of `get_micro_time()` (timer.cpp:14-16). The difference of
times does not overflow. -/
def produceReport (now : Int) (s : SpeedState) : SpeedState :=
  if now - s.lastReport > 1000000 then
    let out := "Read ".toList ++ setw9 s.nodes ++ " nodes, ".toList ++ setw9 s.ways ++ " ways, ".toList ++ setw9 s.relations ++
      " relations last second".toList
    { nodes := 0, ways := 0, relations := 0, lastReport := now, log := s.log ++ [out] }
  else s

/-- osm_decoder.cpp:747-758, the callbacks. -/
def speedCallback (s : SpeedState) (e : OsmEvent × Int) : SpeedState :=
  match e.1 with
  | .node .. => produceReport e.2 { s with nodes := s.nodes + 1 }
  | .way .. => produceReport e.2 { s with ways := s.ways + 1 }
  | .relation .. => produceReport e.2 { s with relations := s.relations + 1 }

/-- osm_decoder.cpp:719-762 `speedtest_osm_pbf_reading`: the messages, and how it ends. `clock i` is the time in the `i`-th call
of a callback; `given` is false if `log_message` is empty, then line 723 throws. `unordered_read_osm_pbf` does not use
`log_message`. -/
def speedtest (inflate : List Byte → Option (List Byte)) (own : Bool) (k : Nat) (clock : Nat → Int) (given : Bool)
    (file : List Byte) : List Text × Res Unit :=
  if !given then ([], .error) else
    let o := unorderedRead inflate own ⟨true, true, true⟩ k file
    let s := (o.1.zipIdx.map fun e => (e.1, clock e.2)).foldl speedCallback ⟨0, 0, 0, 0, ["Starting scan speedtest".toList]⟩
    match o.2 with
    | .ok _ => (s.log ++ ["Speedtest finished".toList], .ok ())
    | .error => (s.log, .error)
    | .ub => (s.log, .ub)

end RK
