import Verif.Model.OsmProfile
import Mathlib.Data.List.Forall2
/-! # Specification: speed limits and turn restrictions of OpenStreetMap -/
namespace RK.Spec
open Osm

/-- The number written with decimal digits. -/
def decimal (l : List Byte) : Nat := l.foldl (fun n c => 10 * n + (c.toNat - 48)) 0

/-- The units of speed limits. -/
inductive SpeedUnit | kmh | mph | knots
deriving DecidableEq

/-- The ways to write a unit (in lower case). -/
def SpeedUnit.texts : SpeedUnit → List (List Byte)
  | .kmh => [[], b!"km/h", b!"kmh", b!"kph"]
  | .mph => [b!"mph"]
  | .knots => [b!"knots"]

/-- The speed in km/h, rounded down. -/
def SpeedUnit.inKmh : SpeedUnit → Nat → Nat
  | .kmh, n => n
  | .mph, n => n * 1609 / 1000
  | .knots, n => n * 1852 / 1000

/-- Capital ASCII letters replaced by small ones. -/
def lowerCase (s : List Byte) : List Byte := s.map fun c => if 65 ≤ c.toNat ∧ c.toNat ≤ 90 then c + 32#8 else c

/-- `s` says that the speed limit is `v` km/h: a number (below two millions), spaces and a unit, in small or capital
letters. -/
def IsLimit (s : List Byte) (v : Nat) : Prop :=
  ∃ (digits unit : List Byte) (k : Nat) (u : SpeedUnit), digits ≠ [] ∧ (∀ c ∈ digits, 48 ≤ c.toNat ∧ c.toNat ≤ 57) ∧
    decimal digits < 2000000 ∧ unit ∈ u.texts ∧ lowerCase s = digits ++ List.replicate k 32#8 ++ unit ∧
    v = u.inKmh (decimal digits)

/-- `s` is a list of values with a `;` and spaces between them. -/
inductive Separated : List Byte → List (List Byte) → Prop
  | one (v) : Separated v [v]
  | more (v rest l) (k : Nat) : Separated rest l → Separated (v ++ 59#8 :: List.replicate k 32#8 ++ rest) (v :: l)

/-- The members of a relation with a role. -/
def withRole (role : List Byte) (members : List Member) : List Member := members.filter fun m => m.2.2 = role

/-- The members of a relation that are ways with a role. -/
def waysWithRole (role : List Byte) (members : List Member) : List Member :=
  members.filter fun m => m.1 = 1 ∧ m.2.2 = role

/-- The values of the tag `restriction` with a meaning. -/
def restrictionTexts : List (List Byte × RestrictionCategory × TurnDirection) :=
  [(b!"only_left_turn", .mandatory, .left), (b!"only_right_turn", .mandatory, .right),
   (b!"only_straight_on", .mandatory, .straight), (b!"only_u_turn", .mandatory, .uTurn),
   (b!"no_left_turn", .prohibitive, .left), (b!"no_right_turn", .prohibitive, .right),
   (b!"no_straight_on", .prohibitive, .straight), (b!"no_u_turn", .prohibitive, .uTurn)]

/-- The restriction has a meaning: at most one member with the role `via`, which is a node, ways with the roles `from` and
`to`, only one of each if the turn is mandatory. -/
def SoundRestriction (c : RestrictionCategory) (members : List Member) : Prop :=
  (withRole b!"via" members).length ≤ 1 ∧ (∀ m ∈ withRole b!"via" members, m.1 = 0) ∧
    waysWithRole b!"from" members ≠ [] ∧ waysWithRole b!"to" members ≠ [] ∧
    (c = .mandatory → (waysWithRole b!"from" members).length = 1 ∧ (waysWithRole b!"to" members).length = 1)

instance (c : RestrictionCategory) (members : List Member) : Decidable (SoundRestriction c members) := by
  unfold SoundRestriction; infer_instance

/-- The node at which the turn is made; `-1` if it is not given. -/
def viaOf (members : List Member) : BitVec 64 :=
  match withRole b!"via" members with
  | m :: _ => m.2.1
  | [] => BitVec.allOnes 64

/-- The meaning of a restriction: one for each pair of ways. -/
def restrictionsOf (relation : BitVec 64) (members : List Member) (c : RestrictionCategory) (d : TurnDirection) :
    List TurnRestriction :=
  (waysWithRole b!"from" members).flatMap fun f => (waysWithRole b!"to" members).map fun t =>
    ⟨relation, c, d, f.2.1, viaOf members, t.2.1⟩

end RK.Spec
