import Verif.Model.Cch
/-! # Triangle enumeration with callbacks (customizable_contraction_hierarchy.cpp:45-193)

The other modules use the list of the triangles that an enumeration reports. Here are the loops of the code as they are
written: the callback is called inside of the loop, may read and change a state of its own, and ends the enumeration by
returning false. -/
namespace RK

/-- customizable_contraction_hierarchy.cpp:62-64: the six arguments of the callback. -/
structure TriCall where
  bottomArc : Nat
  midArc : Nat
  topArc : Nat
  bottomNode : Nat
  midNode : Nat
  topNode : Nat
deriving Repr, DecidableEq

/-- customizable_contraction_hierarchy.cpp:64: a callback answers true to continue and false to abort. `none` is a
failed assertion or undefined behaviour within the callback. The captured variables are the state `S`. -/
abbrev TriCallback (S : Type) := S → TriCall → Option (S × Bool)

/-- customizable_contraction_hierarchy.cpp:76-89, 105-118 and 134-147: the three loops differ only in the two arrays
(`ha`, `hb`) and in the arguments of the callback (`args`, which may read `down_to_up`). The number of rounds is
bounded by `fuel`; running out of it is `none`. -/
def triLoop {S : Type} (ha hb : List Nat) (args : Nat × Nat × Nat → Option TriCall) (f : TriCallback S) :
    Nat → Nat → Nat → Nat → Nat → S → Option (S × Bool)
  | 0, _, _, _, _, _ => none
  | fuel + 1, i, ie, j, je, s =>
    if i ≠ ie ∧ j ≠ je then do
      let x ← rd ha i
      let y ← rd hb j
      if x < y then triLoop ha hb args f fuel (i + 1) ie j je s
      else if x > y then triLoop ha hb args f fuel i ie (j + 1) je s
      else do
        let u ← args (i, j, x)
        let r ← f s u
        if !r.2 then some (r.1, false)
        else triLoop ha hb args f fuel (i + 1) ie (j + 1) je r.1
    else some (s, true)

/-- customizable_contraction_hierarchy.cpp:83: the arguments of the callback. -/
def upperArgs (x y xy : Nat) (t : Nat × Nat × Nat) : Option TriCall := some ⟨xy, t.1, t.2.1, x, y, t.2.2⟩

/-- customizable_contraction_hierarchy.cpp:68-95 `forall_upper_triangles_of_arc`, both overloads. -/
def Cch.forallUpper {S : Type} (c : Cch) (xy : Nat) (f : TriCallback S) (s : S) : Option (S × Bool) := do
  let x ← rd c.upTail xy
  let y ← rd c.upHead xy
  let xe ← rd c.upFirstOut (x + 1)
  let yb ← rd c.upFirstOut y
  let ye ← rd c.upFirstOut (y + 1)
  triLoop c.upHead c.upHead (upperArgs x y xy) f ((xe - (xy + 1)) + (ye - yb) + 1) (xy + 1) xe yb ye s

/-- customizable_contraction_hierarchy.cpp:112: the arguments of the callback. -/
def Cch.midArgs (c : Cch) (x y xy : Nat) (t : Nat × Nat × Nat) : Option TriCall := do
  let top ← rd c.downToUp t.2.1
  some ⟨t.1, xy, top, x, t.2.2, y⟩

/-- customizable_contraction_hierarchy.cpp:97-124 `forall_intermediate_triangles_of_arc`, both overloads. -/
def Cch.forallIntermediate {S : Type} (c : Cch) (xy : Nat) (f : TriCallback S) (s : S) : Option (S × Bool) := do
  let x ← rd c.upTail xy
  let y ← rd c.upHead xy
  let xb ← rd c.upFirstOut x
  let yb ← rd c.downFirstOut y
  let ye ← rd c.downFirstOut (y + 1)
  triLoop c.upHead c.downHead (c.midArgs x y xy) f ((xy - xb) + (ye - yb) + 1) xb xy yb ye s

/-- customizable_contraction_hierarchy.cpp:141: the arguments of the callback. -/
def Cch.lowArgs (c : Cch) (x y xy : Nat) (t : Nat × Nat × Nat) : Option TriCall := do
  let b ← rd c.downToUp t.1
  let m ← rd c.downToUp t.2.1
  some ⟨b, m, xy, t.2.2, x, y⟩

/-- customizable_contraction_hierarchy.cpp:126-153 `forall_lower_triangles_of_arc`, both overloads. -/
def Cch.forallLower {S : Type} (c : Cch) (xy : Nat) (f : TriCallback S) (s : S) : Option (S × Bool) := do
  let x ← rd c.upTail xy
  let y ← rd c.upHead xy
  let xb ← rd c.downFirstOut x
  let xe ← rd c.downFirstOut (x + 1)
  let yb ← rd c.downFirstOut y
  let ye ← rd c.downFirstOut (y + 1)
  triLoop c.downHead c.downHead (c.lowArgs x y xy) f ((xe - xb) + (ye - yb) + 1) xb xe yb ye s

/-- One assertion `v[i] == x`. -/
def assertAt (v : List Nat) (i x : Nat) : Option Unit := do
  let y ← rd v i
  if y = x then some () else none

/-- customizable_contraction_hierarchy.cpp:162-188 `TriangleVerifier::operator()`. -/
def Cch.verifier (c : Cch) : TriCallback Unit := fun _ u => do
  if u.bottomNode = u.midNode ∨ u.bottomNode = u.topNode ∨ u.midNode = u.topNode then none
  else if u.bottomArc = u.midArc ∨ u.bottomArc = u.topArc ∨ u.midArc = u.topArc then none
  else if ¬ (u.bottomNode < u.midNode ∧ u.midNode < u.topNode) then none
  else if ¬ (u.bottomArc < u.midArc ∧ u.midArc < u.topArc) then none
  else do
    assertAt c.upTail u.bottomArc u.bottomNode
    assertAt c.upHead u.bottomArc u.midNode
    assertAt c.upTail u.midArc u.bottomNode
    assertAt c.upHead u.midArc u.topNode
    assertAt c.upTail u.topArc u.midNode
    assertAt c.upHead u.topArc u.topNode
    some ((), true)

end RK
