import Verif.Model.OsmPbf
/-!
# Model of src/osm_profile.cpp and of the travel times in src/osm_simple.cpp

A `const char*` is the list of the bytes in front of the terminating zero. The tag map of a way or relation is the function
that answers `tags[key]` (`none` is the null pointer); that `TagMap` answers like this is C39. Log messages are not modelled.
-/
namespace RK.Osm

/-- The bytes of a string constant. -/
macro:max "b!" s:str : term => do
  let l ← s.getString.toUTF8.toList.mapM fun c => `(BitVec.ofNat 8 $(Lean.quote c.toNat))
  let l := l.toArray
  `(([$l,*] : List Byte))

/-- `tags[key]`, tag_map.h:101-117. -/
abbrev Tags := List Byte → Option (List Byte)

/-- osm_profile.cpp:6-8 `str_eq`, applied to a tag that may be missing. -/
def Tags.is (t : Tags) (key value : List Byte) : Bool := t key = some value

/-- The tag is present and one of the values. -/
def Tags.isOneOf (t : Tags) (key : List Byte) (values : List (List Byte)) : Bool := values.any fun v => t.is key v

/-- osm_profile.cpp:10-18 `str_wild_char_eq`. -/
def strWildCharEq : List Byte → List Byte → Bool
  | l :: ls, r :: rs => if l ≠ 63#8 ∧ r ≠ 63#8 ∧ l ≠ r then false else strWildCharEq ls rs
  | [], [] => true
  | _, _ => false

/-- osm_profile.cpp:20-26 `starts_with`. -/
def startsWith : List Byte → List Byte → Bool
  | [], _ => true
  | p :: ps, c :: cs => if c = p then startsWith ps cs else false
  | _ :: _, [] => false

/-- osm_profile.cpp:33-36. -/
def toLower (c : Byte) : Byte := if 65 ≤ c.toNat ∧ c.toNat ≤ 90 then c - 65#8 + 97#8 else c

/-- osm_profile.cpp:29-41 `copy_str_and_make_lower_case`. -/
def copyLower (s : List Byte) (outSize : Nat) : List Byte := (s.take (outSize - 1)).map toLower

/-- osm_profile.cpp:47-48 and 59-60, spaces are skipped. -/
def skipSpaces (s : List Byte) : List Byte := s.dropWhile (· = 32#8)

/-- osm_profile.cpp:50-63, the loop, `s` is the text from `value_begin` on. -/
def splitLoop : Nat → List Byte → Option (List (List Byte))
  | 0, _ => none
  | fuel + 1, s =>
    let v := s.takeWhile (· ≠ 59#8)
    match s.dropWhile (· ≠ 59#8) with
    | [] => some [v]
    | _ :: rest => do
      let l ← splitLoop fuel (skipSpaces rest)
      some (v :: l)

/-- osm_profile.cpp:44-64 `split_str_at_osm_value_separators`, the arguments of the calls of `f`. -/
def splitValues (s : List Byte) : Option (List (List Byte)) := splitLoop (s.length + 1) (skipSpaces s)

/-- osm_profile.cpp:335-337. -/
def isDigit (c : Byte) : Bool := 48 ≤ c.toNat ∧ c.toNat ≤ 57

/-- osm_profile.cpp:337-341, `speed` is an `unsigned`. -/
def parseDigits (s : List Byte) (speed : Nat) : Nat × List Byte :=
  match s with
  | [] => (speed, [])
  | c :: cs =>
    if isDigit c then parseDigits cs (add32 (mul32 speed 10) (c.toNat - 48)) else (speed, c :: cs)

/-- osm_profile.cpp:294-332, the values that are words. -/
def namedSpeed (s : List Byte) : Option Nat :=
  if s = b!"signals" ∨ s = b!"variable" then some infWeight
  else if s = b!"none" ∨ s = b!"unlimited" then some 130
  else if s = b!"walk" ∨ s = b!"foot" ∨ strWildCharEq s b!"??:walk" ∨ s = b!"walking_pace" ∨ s = b!"schritt" then some 5
  else if strWildCharEq s b!"??:urban" ∨ s = b!"urban" then some 40
  else if strWildCharEq s b!"??:living_street" ∨ s = b!"living_street" then some 10
  else if s = b!"de:rural" ∨ s = b!"at:rural" ∨ s = b!"ro:rural" ∨ s = b!"rural" then some 100
  else if s = b!"ru:rural" ∨ s = b!"ua:rural" then some 90
  else if s = b!"ru:motorway" then some 110
  else if s = b!"ch:motorway" then some 120
  else if s = b!"at:motorway" ∨ s = b!"ro:motorway" ∨ s = b!"de:motorway" then some 130
  else if s = b!"national" then some 100
  else if s = b!"ro:trunk" then some 100
  else if s = b!"dk:rural" ∨ s = b!"ch:rural" ∨ s = b!"fr:rural" then some 80
  else if s = b!"it:rural" ∨ s = b!"hu:rural" then some 90
  else if s = b!"de:zone:30" ∨ s = b!"de:zone30" ∨ s = b!"at:zone30" then some 30
  else none

/-- osm_profile.cpp:294-361 `parse_maxspeed_value`. -/
def parseMaxspeed (s : List Byte) : Nat :=
  match namedSpeed s with
  | some v => v
  | none =>
    match s with
    | [] => infWeight
    | c :: _ =>
      if isDigit c then
        let (speed, rest) := parseDigits s 0
        let u := skipSpaces rest
        if u = [] ∨ u = b!"km/h" ∨ u = b!"kmh" ∨ u = b!"kph" then speed
        else if u = b!"mph" then mul32 speed 1609 / 1000
        else if u = b!"knots" then mul32 speed 1852 / 1000
        else speed
      else infWeight

/-- osm_profile.cpp:365-391: the speed found in the tag `maxspeed`, if any. -/
def speedFromMaxspeed (m : Option (List Byte)) : Option (Option Nat) :=
  match m with
  | none => some none
  | some s =>
    if s = b!"unposted" then some none
    else do
      let l ← splitValues (copyLower s 1023)
      let speed := l.foldl (fun speed v => min speed (parseMaxspeed v)) infWeight
      let speed := if speed = 0 then 1 else speed
      some (if speed ≠ infWeight then some speed else none)

/-- osm_profile.cpp:393-427, the speeds of the classes of roads. -/
def highwaySpeeds : List (List Byte × Nat) :=
  [(b!"motorway", 90), (b!"motorway_link", 45), (b!"trunk", 85), (b!"trunk_link", 40), (b!"primary", 65),
   (b!"primary_link", 30), (b!"secondary", 55), (b!"secondary_link", 25), (b!"tertiary", 40), (b!"tertiary_link", 20),
   (b!"unclassified", 25), (b!"residential", 25), (b!"living_street", 10), (b!"service", 8), (b!"track", 8), (b!"ferry", 5)]

/-- osm_profile.cpp:393-450. -/
def defaultSpeed (t : Tags) : Nat :=
  match (t b!"highway").bind fun h => highwaySpeeds.find? fun p => p.1 = h with
  | some p => p.2
  | none =>
    if (t b!"junction").isSome then 20
    else if t.is b!"route" b!"ferry" then 5
    else if (t b!"ferry").isSome then 5
    else 50

/-- osm_profile.cpp:364-451 `get_osm_way_speed`. -/
def waySpeed (t : Tags) : Option Nat := do
  match ← speedFromMaxspeed (t b!"maxspeed") with
  | some v => some v
  | none => some (defaultSpeed t)

/-- osm_profile.cpp:453-466 `get_osm_way_name`. -/
def wayName (t : Tags) : List Byte :=
  match t b!"name", t b!"ref" with
  | some n, some r => n ++ b!";" ++ r
  | some n, none => n
  | none, some r => r
  | none, none => []

/-- osm_profile.cpp:67-172 `is_osm_way_used_by_pedestrians`. -/
def usedByPedestrians (t : Tags) : Bool :=
  if (t b!"junction").isSome then true
  else if t.is b!"route" b!"ferry" then true
  else if t.is b!"ferry" b!"ferry" then true
  else if t.isOneOf b!"public_transport" [b!"stop_position", b!"platform", b!"stop_area", b!"station"] then true
  else if t.isOneOf b!"railway" [b!"halt", b!"platform", b!"subway_entrance", b!"station", b!"tram_stop"] then true
  else if t b!"highway" = none then false
  else if (t b!"access").isSome ∧ !t.isOneOf b!"access" [b!"yes", b!"permissive", b!"delivery", b!"designated",
      b!"destination", b!"agricultural", b!"forestry", b!"public"] then false
  else if t.is b!"crossing" b!"no" then false
  else t.isOneOf b!"highway" [b!"secondary", b!"tertiary", b!"unclassified", b!"residential", b!"service",
    b!"secondary_link", b!"tertiary_link", b!"living_street", b!"residential", b!"track", b!"bicycle_road", b!"path",
    b!"footway", b!"cycleway", b!"bridleway", b!"pedestrian", b!"escape", b!"steps", b!"crossing", b!"escalator",
    b!"elevator", b!"platform", b!"ferry"]

/-- osm_profile.cpp:174-263 `is_osm_way_used_by_cars`. -/
def usedByCars (t : Tags) : Bool :=
  if (t b!"junction").isSome then true
  else if t.is b!"route" b!"ferry" then true
  else if t.is b!"ferry" b!"yes" then true
  else if t b!"highway" = none then false
  else if t.is b!"motorcar" b!"no" then false
  else if t.is b!"motor_vehicle" b!"no" then false
  else if (t b!"access").isSome ∧ !t.isOneOf b!"access" [b!"yes", b!"permissive", b!"delivery", b!"designated",
      b!"destination"] then false
  else if t.isOneOf b!"highway" [b!"motorway", b!"trunk", b!"primary", b!"secondary", b!"tertiary", b!"unclassified",
    b!"residential", b!"service", b!"motorway_link", b!"trunk_link", b!"primary_link", b!"secondary_link",
    b!"tertiary_link", b!"motorway_junction", b!"living_street", b!"residential", b!"track", b!"ferry"] then true
  else if t.is b!"highway" b!"bicycle_road" then t.is b!"motorcar" b!"yes"
  else if t.isOneOf b!"highway" [b!"construction", b!"path", b!"footway", b!"cycleway", b!"bridleway", b!"pedestrian",
    b!"bus_guideway", b!"raceway", b!"escape", b!"steps", b!"proposed", b!"conveying"] then false
  else if t.isOneOf b!"oneway" [b!"reversible", b!"alternating"] then false
  else (t b!"maxspeed").isSome

/-- osm_profile.cpp:470-566 `is_osm_way_used_by_bicycles`. -/
def usedByBicycles (t : Tags) : Bool :=
  if (t b!"junction").isSome then true
  else if t.is b!"route" b!"ferry" then true
  else if t.is b!"ferry" b!"ferry" then true
  else if t b!"highway" = none then false
  else if t.is b!"highway" b!"proposed" then false
  else if (t b!"access").isSome ∧ !t.isOneOf b!"access" [b!"yes", b!"permissive", b!"delivery", b!"designated",
      b!"destination", b!"agricultural", b!"forestry", b!"public"] then false
  else if t.isOneOf b!"bicycle" [b!"no", b!"use_sidepath"] then false
  else if (t b!"cycleway").isSome then true
  else if (t b!"cycleway:left").isSome then true
  else if (t b!"cycleway:right").isSome then true
  else if (t b!"cycleway:both").isSome then true
  else t.isOneOf b!"highway" [b!"secondary", b!"tertiary", b!"unclassified", b!"residential", b!"service",
    b!"secondary_link", b!"tertiary_link", b!"living_street", b!"residential", b!"track", b!"bicycle_road", b!"primary",
    b!"primary_link", b!"path", b!"footway", b!"cycleway", b!"bridleway", b!"pedestrian", b!"crossing", b!"escape",
    b!"steps", b!"ferry"]

/-- osm_graph_builder.h:29-34 `OSMWayDirectionCategory`. -/
inductive WayDirection | openInBoth | onlyForwards | onlyBackwards | closed
deriving Repr, DecidableEq

/-- osm_profile.cpp:266-291 `get_osm_car_direction_category`. -/
def carDirection (t : Tags) : WayDirection :=
  if (t b!"oneway").isSome then
    if t.isOneOf b!"oneway" [b!"-1", b!"reverse", b!"backward"] then .onlyBackwards
    else if t.isOneOf b!"oneway" [b!"yes", b!"true", b!"1"] then .onlyForwards
    else if t.isOneOf b!"oneway" [b!"no", b!"false", b!"0"] then .openInBoth
    else if t.isOneOf b!"oneway" [b!"reversible", b!"alternating"] then .closed
    else .openInBoth
  else if t.is b!"junction" b!"roundabout" then .onlyForwards
  else if t.isOneOf b!"highway" [b!"motorway", b!"motorway_link"] then .onlyForwards
  else .openInBoth

/-- osm_profile.cpp:568-627 `get_osm_bicycle_direction_category`. -/
def bicycleDirection (t : Tags) : WayDirection :=
  if (t b!"oneway:bicycle").isSome then
    if t.isOneOf b!"oneway:bicycle" [b!"-1", b!"opposite"] then .onlyBackwards
    else if t.isOneOf b!"oneway:bicycle" [b!"1", b!"yes", b!"true", b!"no_planned"] then .onlyForwards
    else if t.isOneOf b!"oneway:bicycle" [b!"0", b!"no", b!"false", b!"tolerated", b!"permissive"] then .openInBoth
    else .closed
  else if t b!"oneway" = none then .openInBoth
  else if t.isOneOf b!"oneway" [b!"no", b!"false", b!"0"] then .openInBoth
  else if t.isOneOf b!"cycleway" [b!"opposite", b!"opposite_track", b!"opposite_lane", b!"opposite_share_busway"] then
    .openInBoth
  else if (t b!"cycleway:both").isSome then .openInBoth
  else if (t b!"cycleway:left").isSome ∧ (t b!"cycleway:right").isSome then .openInBoth
  else if t.isOneOf b!"oneway" [b!"-1", b!"reverse", b!"backward"] then .onlyBackwards
  else if t.isOneOf b!"oneway" [b!"yes", b!"true", b!"1"] then .onlyForwards
  else if t.isOneOf b!"oneway" [b!"reversible", b!"alternating"] then .closed
  else .closed

/-- osm_profile.cpp:637-658 `get_osm_way_bicycle_comfort_level`. -/
def bicycleComfort (t : Tags) : Nat :=
  if t.is b!"highway" b!"cycleway" then 4
  else if (t b!"cycleway").isSome then if t.is b!"cycleway" b!"track" then 3 else 2
  else if t.isOneOf b!"highway" [b!"primary", b!"primary_link"] then 0
  else if t.is b!"bicycle" b!"dismount" then 0
  else 1

/-- osm_graph_builder.h:36-39 `OSMTurnRestrictionCategory`. -/
inductive RestrictionCategory | mandatory | prohibitive
deriving Repr, DecidableEq

/-- osm_graph_builder.h:41-47 `OSMTurnDirection`. -/
inductive TurnDirection | left | right | straight | uTurn
deriving Repr, DecidableEq

/-- osm_graph_builder.h:49-56 `OSMTurnRestriction`. -/
structure TurnRestriction where
  relation : BitVec 64
  category : RestrictionCategory
  direction : TurnDirection
  fromWay : BitVec 64
  viaNode : BitVec 64
  toWay : BitVec 64
deriving Repr, DecidableEq

/-- osm_decoder.h:19-23 `OSMRelationMember`: type (0 node, 1 way, 2 relation), id and role. -/
abbrev Member := Nat × BitVec 64 × List Byte

/-- osm_profile.cpp:674-684, the category and the rest of the value. -/
def restrictionCategory (r : List Byte) : Option (RestrictionCategory × List Byte) :=
  if startsWith b!"only_" r then some (.mandatory, r.drop 5)
  else if startsWith b!"no_" r then some (.prohibitive, r.drop 3)
  else none

/-- osm_profile.cpp:686-700. -/
def restrictionDirection (d : List Byte) : Option TurnDirection :=
  if b!"left_turn" = d then some .left
  else if b!"right_turn" = d then some .right
  else if b!"straight_on" = d then some .straight
  else if b!"u_turn" = d then some .uTurn
  else none

/-- osm_profile.cpp:670-700, category and direction of the restriction. -/
def restrictionKind (r : List Byte) : Option (RestrictionCategory × TurnDirection) := do
  let (c, d) ← restrictionCategory r
  let d ← restrictionDirection d
  some (c, d)

/-- osm_profile.cpp:702-704, the local variables. The indices are stored as `unsigned`. -/
structure Roles where
  via : Nat
  froms : List Nat
  tos : List Nat
deriving Repr, DecidableEq

/-- osm_profile.cpp:706-725, the loop over the members. `none` outside is undefined behaviour, `some none` the return in
line 711. -/
def roleLoop (members : List Member) : Option (Option Roles) :=
  forRange 0 members.length (some ⟨invalidId, [], []⟩) fun s i => do
    match s with
    | none => some none
    | some s =>
      let (_, _, role) ← rd members i
      if role = b!"via" then
        if s.via ≠ invalidId then some none else some (some { s with via := i })
      else if role = b!"from" then some (some { s with froms := s.froms ++ [i] })
      else if role = b!"to" then some (some { s with tos := s.tos ++ [i] })
      else some (some s)

/-- osm_profile.cpp:744-773, `remove_if` of the members that are not ways. -/
def onlyWays (members : List Member) : List Nat → Option (List Nat)
  | [] => some []
  | i :: is => do
    let (type, _, _) ← rd members i
    let l ← onlyWays members is
    if type ≠ 1 then some l else some (i :: l)

/-- osm_profile.cpp:798-800, the calls of the callback. -/
def emitAll (relation : BitVec 64) (members : List Member) (category : RestrictionCategory) (direction : TurnDirection)
    (via : BitVec 64) (froms tos : List Nat) : Option (List TurnRestriction) :=
  forEach froms [] fun out f => forEach tos out fun out t => do
    let (_, a, _) ← rd members f
    let (_, b, _) ← rd members t
    some (out ++ [⟨relation, category, direction, a, via, b⟩])

/-- osm_profile.cpp:727-740: `none` inside if the restriction is ignored. -/
def viaNodeOf (members : List Member) (via : Nat) : Option (Option (BitVec 64)) :=
  if via = invalidId then some (some (BitVec.allOnes 64))
  else do
    let (type, id, _) ← rd members via
    if type = 2 then some none
    else if type = 1 then some none
    else some (some id)

/-- osm_profile.cpp:660-801 `decode_osm_car_turn_restrictions`, the restrictions passed to the callback. -/
def decodeRestrictions (relation : BitVec 64) (members : List Member) (t : Tags) : Option (List TurnRestriction) :=
  match t b!"restriction" with
  | none => some []
  | some r =>
    match restrictionKind r with
    | none => some []
    | some (category, direction) => do
      match ← roleLoop members with
      | none => some []
      | some s =>
        match ← viaNodeOf members s.via with
        | none => some []
        | some via =>
          let froms ← onlyWays members s.froms
          let tos ← onlyWays members s.tos
          if tos = [] then some []
          else if froms = [] then some []
          else if category = .mandatory ∧ tos.length ≠ 1 then some []
          else if category = .mandatory ∧ froms.length ≠ 1 then some []
          else emitAll relation members category direction via froms tos

/-- osm_simple.cpp:54-56, the travel time of an arc; `none` is a division by zero. -/
def travelTime (dist speed : Nat) : Option Nat :=
  if speed = 0 then none else some (mul32 dist 18000 / speed / 5)

/-- osm_simple.cpp:52-57, all travel times. -/
def travelTimes (geoDistance way waySpeed : List Nat) : Option (List Nat) :=
  forRange 0 geoDistance.length geoDistance fun tt a => do
    let d ← rd tt a
    let w ← rd way a
    let s ← rd waySpeed w
    let x ← travelTime d s
    wr tt a x

end RK.Osm
