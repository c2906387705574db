import Verif.Res
import Verif.Model.Inertial
import Verif.Model.InverseVector
/-! # Model of `/repo/src/compute_nested_dissection_order.cpp` -/
namespace RK

/-- compute_nested_dissection_order.cpp:37-54: the vectors are loaded, `node_count` is `first_out.size()-1`, the tails are computed,
the order is computed and saved; the result is the content of the saved file. The tool performs no check of its own. Coordinates are
of a type `K` with comparison, sum and difference as in `Verif/Model/Inertial.lean`. For an empty `first_out` the call of
`invert_inverse_vector` reads the last element of an empty vector before `node_count` is used, so the value to which
`first_out.size()-1` wraps does not matter. -/
def toolComputeOrder {K : Type} (lt : K → K → Bool) (add sub : K → K → K) (nth : Nd.Nth) (junk : Nat → Bool) (junk' : Nat → Word)
    (depth : Nat) (firstOut head : List Nat) (latitude longitude : List K) : Res (List Nat) := do
  let nodeCount := firstOut.length - 1
  let tail ← Res.ofOption (invertInverseVector firstOut)
  Res.ofOption (Nd.inertialOrder lt add sub nth junk junk' latitude longitude depth nodeCount tail head)

end RK
