import Verif.Spec.Query
import Verif.Spec.History
/-! # Specification: an object answers like a fresh one -/
namespace Spec

/-- The data structure and the graph that were attached last, if an object was constructed with `h` for the graph `G` and
`ops` were called afterwards. -/
def lastAttached {H : Type} (h : H) (G : QGraph) (ops : List (QOp H)) : H × QGraph :=
  ops.foldl (fun p op => match op with
    | .attach h' G' => (h', G')
    | _ => p) (h, G)

/-- Performing first `before`, then `op`, and then `after` on the object `c` is possible; the call `op` has no answer, and the calls
`after` get the very same answers as they get on the object `fresh`. -/
def AnswersLike {M Op Out : Type} (call : M → Op → Option (M × Out)) (c : M) (before : List Op) (op : Op) (unit : Out) (after : List Op)
    (fresh : M) : Prop :=
  ∃ c1 c2 c3 outs answers, runCalls call c before = some (c1, outs) ∧ runCalls call fresh after = some (c2, answers) ∧
    runCalls call c (before ++ op :: after) = some (c3, outs ++ unit :: answers)

end Spec
