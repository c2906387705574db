import Verif.Proof.QueryLife
import Verif.Props.ChQuery
/-! # C103: programs with several hierarchies and query objects -/
namespace RK.Props
open RK _root_.Spec

/-- The preconditions for statements about contraction hierarchies and their query objects. -/
abbrev ChLifePre : LifeView → LifeOp Ch → Prop := LifePre BuiltFor (fun n k => k ≤ n)

/-- C103. Every program that builds, copies, moves and destroys hierarchies, constructs, copies and destroys query objects, and calls
their functions in any interleaving, is served without undefined behaviour and with correct answers, if a query object is only used
while the hierarchy variable that it was told about last has not been changed. Resetting it to another hierarchy, copying and
destroying it is possible at any time. -/
theorem C103_programs : Implements ChProgram.call LifeStep ChLifePre ⟨fun _ => none, fun _ => none⟩ ⟨fun _ => none, fun _ => none⟩ := by
  refine implements_of_simulation RepLives ⟨fun _ => rfl, fun _ => rfl⟩ (fun w S op hr hp => life_step w S op hr ?_)
  cases op with
  | build i ch G => exact BuiltFor.hierOk hp
  | _ => exact hp

/-- C103. The precondition is needed: once its hierarchy has been destroyed or moved away, a query object cannot be run. -/
theorem C103_hierarchy_gone (w : ChProgram) (k p : Nat) (m : ChQuery) (h : w.queries k = some (p, m)) (gone : w.hiers p = none) :
    w.call (.call k .run) = none := by
  simp [ChProgram.call, ChProgram.callQuery, h, gone]

set_option maxRecDepth 10000 in
/-- Two variables for hierarchies, two query objects: the second is a copy made between `add_source` and `add_target`; then the
hierarchy is moved away, and the first object is reset to its new place. -/
example : (sampleCh.bind fun ch => (runCalls ChProgram.call ⟨fun _ => none, fun _ => none⟩
    [.build 0 ch sampleChGraph, .construct 0 0, .call 0 (.addSource 0 3), .copyQuery 1 0, .call 0 (.addTarget 4 1), .call 0 .run,
      .call 1 (.addTarget 1 0), .call 1 .run, .call 0 .results, .call 1 .results, .moveHier 1 0, .call 0 (.attach 1 sampleChGraph),
      .call 0 (.addSource 2 0), .call 0 (.addTarget 3 0), .call 0 .run, .call 0 .results, .endQuery 1]).map (·.2.filterMap fun
        | .result r => some [r.distance, r.source, r.target]
        | _ => none)) = some [[13, 0, 4], [7, 0, 1], [7, 2, 3]] := by decide +kernel

/-- The hypothesis of `C103_programs` is met: the hierarchy exists, and the object is reset after its hierarchy has been moved. -/
example : ∃ ch, BuiltFor ch sampleChGraph ∧ Legal ChProgram.call LifeStep ChLifePre ⟨fun _ => none, fun _ => none⟩
    ⟨fun _ => none, fun _ => none⟩ [.build 0 ch sampleChGraph, .construct 0 0, .moveHier 1 0, .call 0 (.attach 1 sampleChGraph)] := by
  obtain ⟨ch, _, hb, _⟩ := sampleCh_built
  refine ⟨ch, hb, legal_of_spec ?_⟩
  intro pre op post hh outs m hr
  match pre, hh with
  | [], hh => cases hh; exact hb
  | [a], hh =>
    cases hh
    obtain ⟨_, _, m0, h0, h1⟩ := specRun_snoc_inv (ops := []) hr
    cases specRun_nil_inv h0
    rw [h1.2]
    simp [LifePre, LifeView.setHier, changed]
  | [a, b], hh =>
    cases hh
    obtain ⟨_, _, m1, h1, h2⟩ := specRun_snoc_inv (ops := [LifeOp.build 0 ch sampleChGraph]) hr
    obtain ⟨_, _, m0, h0, h1⟩ := specRun_snoc_inv (ops := []) h1
    cases specRun_nil_inv h0
    obtain ⟨G, _, _, e⟩ := h2
    rw [e, h1.2]
    simp [LifePre, LifeView.setHier, changed]
  | [a, b, c], hh =>
    cases hh
    obtain ⟨_, _, m2, h2, h3⟩ := specRun_snoc_inv (ops := [LifeOp.build 0 ch sampleChGraph, LifeOp.construct 0 0]) hr
    obtain ⟨_, _, m1, h1, h2⟩ := specRun_snoc_inv (ops := [LifeOp.build 0 ch sampleChGraph]) h2
    obtain ⟨_, _, m0, h0, h1⟩ := specRun_snoc_inv (ops := []) h1
    cases specRun_nil_inv h0
    obtain ⟨G, _, _, e⟩ := h2
    rw [h3.2, e, h1.2]
    simp [LifePre, LifeView.setHier, changed]
  | a :: b :: c :: d :: rest, hh => simp at hh

end RK.Props
