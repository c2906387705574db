/-! # Histories of calls on a stateful object

`M` is the state of the implementation model, `σ` the abstract state of a specification. -/
namespace Spec

variable {σ M Op Out : Type}

/-- Performs a list of calls, collecting the answers (oldest first). `call` returns `none` for
undefined behaviour. -/
def runCalls (call : M → Op → Option (M × Out)) (c : M) (ops : List Op) : Option (M × List Out) :=
  ops.foldlM (fun r op => (call r.1 op).map fun r' => (r'.1, r.2 ++ [r'.2])) (c, [])

/-- `SpecRun step s ops outs s'`: from the abstract state `s` the calls `ops` may be answered by
`outs`, leading to `s'`, where `step s op out s'` tells whether `out` is an allowed answer to `op` in
state `s` and `s'` the state after that answer. -/
inductive SpecRun (step : σ → Op → Out → σ → Prop) : σ → List Op → List Out → σ → Prop
  | nil (s) : SpecRun step s [] [] s
  | snoc {s ops outs s' op out s''} : SpecRun step s ops outs s' → step s' op out s'' →
      SpecRun step s (ops ++ [op]) (outs ++ [out]) s''

/-- The caller respects the precondition `pre` of every call, given the abstract state that results
from the preceding calls and the answers obtained from the implementation. -/
def Legal (call : M → Op → Option (M × Out)) (step : σ → Op → Out → σ → Prop)
    (pre : σ → Op → Prop) (c : M) (s : σ) (ops : List Op) : Prop :=
  ∀ before op after, ops = before ++ op :: after → ∀ c' outs s',
    runCalls call c before = some (c', outs) → SpecRun step s before outs s' → pre s' op

/-- The implementation started in `c` serves every legal history without undefined behaviour and with
answers allowed by the specification. -/
def Implements (call : M → Op → Option (M × Out)) (step : σ → Op → Out → σ → Prop)
    (pre : σ → Op → Prop) (c : M) (s : σ) : Prop :=
  ∀ ops, Legal call step pre c s ops →
    ∃ c' outs s', runCalls call c ops = some (c', outs) ∧ SpecRun step s ops outs s'

end Spec
