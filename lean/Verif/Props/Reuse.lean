import Verif.Spec.Reuse
import Verif.Proof.Reuse
import Verif.Proof.CchSame
import Verif.Props.ChExtra
import Verif.Props.CchQuery
/-! # Property theorems C34 (reuse of query objects): the same answers as a fresh object -/
namespace RK.Props
open Spec RK

theorem chRun_last (ch : Ch) (G : QGraph) (h : BuiltFor ch G) (before : List (QOp Ch))
    (hb : Legal chCall QStep ChPre (ChQuery.new ch) (QState.fresh G) before) :
    ∃ q outs s, runCalls chCall (ChQuery.new ch) before = some (q, outs) ∧ QRep q s ∧ q.ch = some (lastAttached ch G before).1 ∧
      s.graph = (lastAttached ch G before).2 ∧ BuiltFor (lastAttached ch G before).1 (lastAttached ch G before).2 := by
  obtain ⟨q, outs, s, h1, _, h3, h4, h5, h6⟩ := run_lastAttached (step := QStep) (pre := ChPre) QRep BuiltFor ChQuery.ch
    (fun _ _ _ hc hp => chCall_spec hc (chPre hp))
    (fun c c' h op out e1 e2 G => by have k := chCall_ch e1 e2; rw [k]; cases op <;> rfl) (fun s s' op out hs h => qStep_graph hs h)
    (fun _ _ _ h => h) (chQuery_rep_new h.hierOk) (rfl : (ChQuery.new ch).ch = some ch) h before hb
  exact ⟨q, outs, s, h1, h3, h4, h5, h6⟩

/-- C34, contraction hierarchies: whatever legal calls `before` were made on a query object, after `reset()` every further legal
call gets the very same answer (also the same shortest path, if there are several) as on a new object for the
hierarchy that was attached last. -/
theorem C34_reset_like_fresh (ch : Ch) (G : QGraph) (h : BuiltFor ch G) (before after : List (QOp Ch))
    (hb : Legal chCall QStep ChPre (ChQuery.new ch) (QState.fresh G) before)
    (ha : Legal chCall QStep ChPre (ChQuery.new (lastAttached ch G before).1) (QState.fresh (lastAttached ch G before).2) after) :
    AnswersLike chCall (ChQuery.new ch) before .reset .unit after (ChQuery.new (lastAttached ch G before).1) := by
  obtain ⟨q, outs, s, h1, h2, h3, h4, h5⟩ := chRun_last ch G h before hb
  obtain ⟨q', o, s', e, ⟨rfl, rfl⟩, h6⟩ := chCall_spec (op := .reset) h2 trivial
  have e' := e
  simp only [chCall, Option.map_eq_some_iff, Prod.mk.injEq, and_true] at e'
  obtain ⟨_, e', rfl⟩ := e'
  obtain ⟨k1, k2⟩ := reset_ch e'
  rw [h4] at h6
  obtain ⟨c1, c2, answers, _, r1, r2, _, _⟩ := runCalls_same (call := chCall) (step := QStep) (pre := ChPre) ChQuery.Same
    (fun _ _ _ _ hs hp => chCall_same hs (chPre hp))
    (ChQuery.Same.fresh h6 (chQuery_rep_new h5.hierOk) (k1.trans h3) k2) after ha
  exact ⟨q, c2, c1, outs, answers, h1, r2, runCalls_append h1 (runCalls_cons e r1)⟩

/-- C34, contraction hierarchies: `reset(ch')` makes a used object equivalent to a new object for `ch'`. -/
theorem C34_attach_like_fresh (ch ch' : Ch) (G G' : QGraph) (h : BuiltFor ch G) (h' : BuiltFor ch' G') (before after : List (QOp Ch))
    (hb : Legal chCall QStep ChPre (ChQuery.new ch) (QState.fresh G) before)
    (ha : Legal chCall QStep ChPre (ChQuery.new ch') (QState.fresh G') after) :
    AnswersLike chCall (ChQuery.new ch) before (.attach ch' G') .unit after (ChQuery.new ch') := by
  obtain ⟨q, outs, s, h1, h2, h3, h4, h5⟩ := chRun_last ch G h before hb
  obtain ⟨q', o, s', e, ⟨rfl, rfl⟩, h6⟩ := chCall_spec (op := .attach ch' G') h2 h'.hierOk
  have e' := e
  simp only [chCall, Option.map_eq_some_iff, Prod.mk.injEq, and_true] at e'
  obtain ⟨_, e', rfl⟩ := e'
  obtain ⟨k1, k2⟩ := resetCh_ch e'
  obtain ⟨c1, c2, answers, _, r1, r2, _, _⟩ := runCalls_same (call := chCall) (step := QStep) (pre := ChPre) ChQuery.Same
    (fun _ _ _ _ hs hp => chCall_same hs (chPre hp))
    (ChQuery.Same.fresh h6 (chQuery_rep_new h'.hierOk) k1 k2) after ha
  exact ⟨q, c2, c1, outs, answers, h1, r2, runCalls_append h1 (runCalls_cons e r1)⟩

theorem cchCall_on {q q' : CchQuery} {op : QOp CchHandle} {o : QOut} {h : CchHandle} (hon : q.on = some h)
    (e : cchCall q op = some (q', o)) (G : QGraph) : q'.on = some (QOp.next op (h, G)).1 := by
  cases op <;> simp only [cchCall, Option.map_eq_some_iff, Option.bind_eq_bind, Option.bind_eq_some_iff, Prod.mk.injEq, Option.some.injEq] at e
  case reset => obtain ⟨a, e, rfl, rfl⟩ := e; rw [cchReset_on e]; exact hon
  case attach => obtain ⟨a, e, rfl, rfl⟩ := e; rw [cchResetMetric_on e]; rfl
  case results => obtain ⟨_, _, _, _, _, _, _, _, _, _, rfl, rfl⟩ := e; exact hon
  case resultsToTargets => obtain ⟨_, _, rfl, rfl⟩ := e; exact hon
  case resultsToSources => obtain ⟨_, _, rfl, rfl⟩ := e; exact hon
  case pinnedTargetCount => cases e
  case pinnedSourceCount => cases e
  all_goals
    obtain ⟨a, e, rfl, rfl⟩ := e
    simp only [CchQuery.addSource, CchQuery.addTarget, CchQuery.run, CchQuery.pinTargets, CchQuery.pinSources, CchQuery.resetSource,
      CchQuery.resetTarget, CchQuery.runToPinnedTargets, CchQuery.runToPinnedSources, hon, Option.bind_eq_bind, Option.bind_some,
      Option.bind_eq_some_iff, Option.some.injEq] at e
  case addSource => obtain ⟨_, _, _, _, _, _, rfl⟩ := e; rfl
  case addTarget => obtain ⟨_, _, _, _, _, _, rfl⟩ := e; rfl
  case run => obtain ⟨_, _, _, _, _, _, rfl⟩ := e; rfl
  case pinTargets => obtain ⟨_, _, _, _, rfl⟩ := e; rfl
  case pinSources => obtain ⟨_, _, _, _, rfl⟩ := e; rfl
  case resetSource => obtain ⟨_, _, _, _, _, _, rfl⟩ := e; rfl
  case resetTarget => obtain ⟨_, _, _, _, _, _, rfl⟩ := e; rfl
  case runToPinnedTargets => obtain ⟨_, _, _, _, rfl⟩ := e; rfl
  case runToPinnedSources => obtain ⟨_, _, _, _, rfl⟩ := e; rfl

theorem cchRun_last (heap : Nat → Cch) (on : CchHandle) (G : QGraph) (h : CustomizedFor heap on G) (before : List (QOp CchHandle))
    (hb : Legal cchCall CchStep (CchQueryPre heap) (CchQuery.new on) (QState.fresh G) before) :
    ∃ q outs s, runCalls cchCall (CchQuery.new on) before = some (q, outs) ∧ CchRep heap q s ∧
      q.on = some (lastAttached on G before).1 ∧ s.graph = (lastAttached on G before).2 ∧
      CustomizedFor heap (lastAttached on G before).1 (lastAttached on G before).2 := by
  obtain ⟨q, outs, s, h1, _, h3, h4, h5, h6⟩ := run_lastAttached (step := CchStep) (pre := CchQueryPre heap) (CchRep heap) (CustomizedFor heap) CchQuery.on
    (fun _ _ _ hc hp => cchCall_spec hc (cchPre hp))
    (fun c c' h op out e1 e2 G => cchCall_on e1 e2 G) (fun s s' op out hs h => cchStep_graph hs h)
    (fun _ _ _ h => h) (cchRep_new h.handle) (rfl : (CchQuery.new on).on = some on) h before hb
  exact ⟨q, outs, s, h1, h3, h4, h5, h6⟩

/-- C34, customizable contraction hierarchies: whatever legal calls `before` were made on a query object, after `reset()` every further
legal call gets the very same answer (also the same shortest path, if there are several) as on a new object for the
metric that was attached last. -/
theorem C34_cch_reset_like_fresh (heap : Nat → Cch) (on : CchHandle) (G : QGraph) (h : CustomizedFor heap on G)
    (before after : List (QOp CchHandle))
    (hb : Legal cchCall CchStep (CchQueryPre heap) (CchQuery.new on) (QState.fresh G) before)
    (ha : Legal cchCall CchStep (CchQueryPre heap) (CchQuery.new (lastAttached on G before).1)
      (QState.fresh (lastAttached on G before).2) after) :
    AnswersLike cchCall (CchQuery.new on) before .reset .unit after (CchQuery.new (lastAttached on G before).1) := by
  obtain ⟨q, outs, s, h1, h2, h3, h4, h5⟩ := cchRun_last heap on G h before hb
  obtain ⟨q', o, s', e, ⟨rfl, rfl⟩, h6⟩ := cchCall_spec (op := .reset) h2 trivial
  have k1 := cchCall_on h3 e G
  rw [h4] at h6
  obtain ⟨c1, c2, answers, _, r1, r2, _, _⟩ := runCalls_same (call := cchCall) (step := CchStep)
    (pre := CchQueryPre heap) (CchQuery.Same heap) (fun _ _ _ _ hs hp => cchCall_same hs (cchPre hp))
    (cchSame_fresh h6 (cchRep_new h5.handle) k1) after ha
  exact ⟨q, c2, c1, outs, answers, h1, r2, runCalls_append h1 (runCalls_cons e r1)⟩

/-- C34, customizable contraction hierarchies: `reset(metric)` makes a used object equivalent to a new object for that metric, which may
belong to another hierarchy. -/
theorem C34_cch_attach_like_fresh (heap : Nat → Cch) (on on' : CchHandle) (G G' : QGraph) (h : CustomizedFor heap on G)
    (h' : CustomizedFor heap on' G') (before after : List (QOp CchHandle))
    (hb : Legal cchCall CchStep (CchQueryPre heap) (CchQuery.new on) (QState.fresh G) before)
    (ha : Legal cchCall CchStep (CchQueryPre heap) (CchQuery.new on') (QState.fresh G') after) :
    AnswersLike cchCall (CchQuery.new on) before (.attach on' G') .unit after (CchQuery.new on') := by
  obtain ⟨q, outs, s, h1, h2, h3, h4, h5⟩ := cchRun_last heap on G h before hb
  obtain ⟨q', o, s', e, ⟨rfl, rfl⟩, h6⟩ := cchCall_spec (op := .attach on' G') h2 h'.handle
  have k1 := cchCall_on h3 e G
  obtain ⟨c1, c2, answers, _, r1, r2, _, _⟩ := runCalls_same (call := cchCall) (step := CchStep)
    (pre := CchQueryPre heap) (CchQuery.Same heap) (fun _ _ _ _ hs hp => cchCall_same hs (cchPre hp))
    (cchSame_fresh h6 (cchRep_new h'.handle) k1) after ha
  exact ⟨q, c2, c1, outs, answers, h1, r2, runCalls_append h1 (runCalls_cons e r1)⟩

/-! ### A concrete case

The graph with the arcs 0→1, 0→2, 1→3, 2→3 of weight 1 has two shortest paths from 0 to 3. -/

/-- The calls of a query from 0 to 3. -/
def fromZeroToThree {H : Type} : List (QOp H) := [.addSource 0 0, .addTarget 3 0, .run, .results]

/-- A query from 1 to 3, which is left behind in the object, after a run with pinned targets. -/
def usedBefore {H : Type} : List (QOp H) :=
  [.pinTargets [2, 0], .addSource 1 0, .runToPinnedTargets, .reset, .addSource 1 0, .addTarget 3 0, .run]

def diamondGraph : QGraph := ⟨4, listArcs [0, 0, 1, 2] [1, 2, 3, 3] [1, 1, 1, 1]⟩

def diamondCh : Option Ch := Ch.build true 4 [0, 0, 1, 2] [1, 2, 3, 3] [1, 1, 1, 1] 500 (fun _ => 0) (fun _ => 0)

def diamondHandle : Option CchHandle := do
  let c ← Cch.build [1, 2, 0, 3] [0, 0, 1, 2] [1, 2, 3, 3] true true (fun _ _ => 0)
  let m ← (Metric.new c).customize c [1, 1, 1, 1]
  some ⟨7, c, m, [1, 1, 1, 1]⟩

theorem usedBefore_legal {H : Type} (c : ChQuery) (call : ChQuery → QOp H → Option (ChQuery × QOut)) (Valid : H → QGraph → Prop) :
    Legal call QStep (QPre Valid fun n k => k ≤ n) c (QState.fresh diamondGraph) usedBefore := by
  refine legal_of_next (fun h => qStep_next h) fun i hi => ?_
  unfold usedBefore at hi ⊢
  rcases i with _ | _ | _ | _ | _ | _ | _ | i
  · exact ⟨rfl, rfl, (show 2 ≤ 4 by decide), (show ∀ t ∈ [2, 0], t < 4 by decide)⟩
  · exact ⟨(show 1 < 4 by decide), (show 0 < unreachable by decide), Or.inr ⟨_, rfl⟩⟩
  · exact ⟨⟨_, rfl⟩, (show [(1, 0)] ≠ [] by decide)⟩
  · trivial
  · exact ⟨(show 1 < 4 by decide), (show 0 < unreachable by decide), Or.inl rfl⟩
  · exact ⟨(show 3 < 4 by decide), (show 0 < unreachable by decide), Or.inl rfl⟩
  · exact ⟨rfl, (show [(1, 0)] ≠ [] by decide), (show [(3, 0)] ≠ [] by decide)⟩
  · simp at hi; omega

theorem fromZeroToThree_legal {H : Type} (c : ChQuery) (call : ChQuery → QOp H → Option (ChQuery × QOut)) (Valid : H → QGraph → Prop) :
    Legal call QStep (QPre Valid fun n k => k ≤ n) c (QState.fresh diamondGraph) fromZeroToThree := by
  refine legal_of_next (fun h => qStep_next h) fun i hi => ?_
  unfold fromZeroToThree at hi ⊢
  rcases i with _ | _ | _ | _ | i
  · exact ⟨(show 0 < 4 by decide), (show 0 < unreachable by decide), Or.inl rfl⟩
  · exact ⟨(show 3 < 4 by decide), (show 0 < unreachable by decide), Or.inl rfl⟩
  · exact ⟨rfl, (show [(0, 0)] ≠ [] by decide), (show [(3, 0)] ≠ [] by decide)⟩
  · rfl
  · simp at hi; omega

theorem usedBefore_cch_legal {H : Type} (c : CchQuery) (call : CchQuery → QOp H → Option (CchQuery × QOut)) (Valid : H → QGraph → Prop) :
    Legal call CchStep (CchPre Valid) c (QState.fresh diamondGraph) usedBefore := by
  refine legal_of_next (fun h => cchStep_next h) fun i hi => ?_
  unfold usedBefore at hi ⊢
  rcases i with _ | _ | _ | _ | _ | _ | _ | i
  · exact ⟨rfl, rfl, (show 2 < 2 ^ 32 by decide), (show ∀ t ∈ [2, 0], t < 4 by decide)⟩
  · exact ⟨(show 1 < 4 by decide), (show 0 < unreachable by decide), Or.inr ⟨_, rfl⟩⟩
  · exact ⟨_, rfl⟩
  · trivial
  · exact ⟨(show 1 < 4 by decide), (show 0 < unreachable by decide), Or.inl rfl⟩
  · exact ⟨(show 3 < 4 by decide), (show 0 < unreachable by decide), Or.inl rfl⟩
  · rfl
  · simp at hi; omega

theorem fromZeroToThree_cch_legal {H : Type} (c : CchQuery) (call : CchQuery → QOp H → Option (CchQuery × QOut)) (Valid : H → QGraph → Prop) :
    Legal call CchStep (CchPre Valid) c (QState.fresh diamondGraph) fromZeroToThree := by
  refine legal_of_next (fun h => cchStep_next h) fun i hi => ?_
  unfold fromZeroToThree at hi ⊢
  rcases i with _ | _ | _ | _ | i
  · exact ⟨(show 0 < 4 by decide), (show 0 < unreachable by decide), Or.inl rfl⟩
  · exact ⟨(show 3 < 4 by decide), (show 0 < unreachable by decide), Or.inl rfl⟩
  · rfl
  · rfl
  · simp at hi; omega

set_option maxRecDepth 10000 in
theorem diamondCh_built : ∃ ch, diamondCh = some ch ∧ BuiltFor ch diamondGraph := by
  have h : (diamondCh.any fun ch => (ch.forward.weight.all fun w => decide (w ≤ lightArc)) &&
      (ch.backward.weight.all fun w => decide (w ≤ lightArc))) = true := by
    decide +kernel
  cases hc : diamondCh with
  | none => rw [hc] at h; cases h
  | some ch =>
    rw [hc] at h
    simp only [Option.any_some, Bool.and_eq_true, List.all_eq_true, decide_eq_true_eq] at h
    refine ⟨ch, rfl, _, _, _, ⟨rfl, rfl, rfl, ?_, ?_, ?_, ?_, ?_⟩, true, 500, _, _, Or.inl hc, h.1, h.2⟩
    · decide
    · decide
    · decide
    · decide
    · decide

set_option maxRecDepth 10000 in
theorem diamondHandle_customized : ∃ on heap, diamondHandle = some on ∧ CustomizedFor heap on diamondGraph := by
  have h : diamondHandle.isSome = true := by decide +kernel
  obtain ⟨on, ho⟩ := Option.isSome_iff_exists.1 h
  refine ⟨on, fun _ => on.cch, ho, ?_⟩
  simp only [diamondHandle, Option.bind_eq_bind, Option.bind_eq_some_iff] at ho
  obtain ⟨c, hc, m, hm, e⟩ := ho
  cases e
  refine ⟨[1, 2, 0, 3], [0, 0, 1, 2], [1, 2, 3, 3], true, true, _, _, ⟨?_, ?_, rfl, ?_, ?_, ?_, Or.inl rfl⟩, ?_, hc, rfl, ?_, rfl, rfl, ?_, ?_, hm, rfl⟩
  · unfold IsPermutation; decide
  · decide
  · decide
  · decide
  · decide
  · decide
  · show ∀ w ∈ [1, 1, 1, 1], w ≤ unreachable; decide
  · simp [Metric.new]
  · simp [Metric.new]

/-- Non-vacuity: the hypotheses hold. -/
example : ∃ ch, diamondCh = some ch ∧
    AnswersLike chCall (ChQuery.new ch) usedBefore .reset .unit fromZeroToThree (ChQuery.new ch) ∧
    AnswersLike chCall (ChQuery.new ch) usedBefore (.attach ch diamondGraph) .unit fromZeroToThree (ChQuery.new ch) := by
  obtain ⟨ch, h1, h2⟩ := diamondCh_built
  exact ⟨ch, h1, C34_reset_like_fresh ch _ h2 usedBefore fromZeroToThree (usedBefore_legal _ _ _) (fromZeroToThree_legal _ _ _),
    C34_attach_like_fresh ch ch _ _ h2 h2 usedBefore fromZeroToThree (usedBefore_legal _ _ _) (fromZeroToThree_legal _ _ _)⟩

/-- Non-vacuity: the hypotheses hold. -/
example : ∃ on, diamondHandle = some on ∧
    AnswersLike cchCall (CchQuery.new on) usedBefore .reset .unit fromZeroToThree (CchQuery.new on) ∧
    AnswersLike cchCall (CchQuery.new on) usedBefore (.attach on diamondGraph) .unit fromZeroToThree (CchQuery.new on) := by
  obtain ⟨on, heap, h1, h2⟩ := diamondHandle_customized
  exact ⟨on, h1, C34_cch_reset_like_fresh heap on _ h2 usedBefore fromZeroToThree (usedBefore_cch_legal _ _ _) (fromZeroToThree_cch_legal _ _ _),
    C34_cch_attach_like_fresh heap on on _ _ h2 h2 usedBefore fromZeroToThree (usedBefore_cch_legal _ _ _) (fromZeroToThree_cch_legal _ _ _)⟩

set_option maxRecDepth 10000 in
/-- The answers of the sample. -/
example : (diamondCh.bind fun ch => (runCalls chCall (ChQuery.new ch) (usedBefore ++ .reset :: fromZeroToThree)).map
    (·.2.filterMap fun
        | .result r => some (r.distance, r.arcs)
        | _ => none)) = some [(2, [1, 3])] := by decide +kernel

end RK.Props
