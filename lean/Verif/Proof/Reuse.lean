import Verif.Spec.Reuse
import Verif.Spec.CchQuery
import Verif.Proof.History
/-! Helper lemmas for `Spec.AnswersLike`. -/
namespace RK
open Spec
variable {σ M Op Out H : Type}

theorem runCalls_append {call : M → Op → Option (M × Out)} {c c' c'' : M} {a b : List Op} {o o' : List Out}
    (h1 : runCalls call c a = some (c', o)) (h2 : runCalls call c' b = some (c'', o')) : runCalls call c (a ++ b) = some (c'', o ++ o') := by
  induction b using List.reverseRecOn generalizing c'' o' with
  | nil => cases h2; simpa using h1
  | append_singleton b op ih =>
    rw [runCalls_snoc, Option.bind_eq_some_iff] at h2
    obtain ⟨⟨m, os⟩, h3, h4⟩ := h2
    rw [Option.map_eq_some_iff] at h4
    obtain ⟨⟨m', x⟩, h4, h5⟩ := h4
    cases h5
    rw [← List.append_assoc, runCalls_snoc, ih h3]
    simp only [Option.bind_some]
    dsimp only at h4
    rw [h4]
    simp

theorem runCalls_cons {call : M → Op → Option (M × Out)} {c c' c'' : M} {op : Op} {b : List Op} {x : Out} {o : List Out}
    (h1 : call c op = some (c', x)) (h2 : runCalls call c' b = some (c'', o)) : runCalls call c (op :: b) = some (c'', x :: o) := by
  have : runCalls call c [op] = some (c', [x]) := by simp [runCalls, h1]
  exact runCalls_append this h2

/-- Objects in the same situation give the same answers. -/
theorem runCalls_same {call : M → Op → Option (M × Out)} {step : σ → Op → Out → σ → Prop} {pre : σ → Op → Prop}
    (Same : σ → M → M → Prop)
    (hstep : ∀ s c1 c2 op, Same s c1 c2 → pre s op →
      ∃ c1' c2' out s', call c1 op = some (c1', out) ∧ call c2 op = some (c2', out) ∧ step s op out s' ∧ Same s' c1' c2')
    {c1 c2 : M} {s : σ} (h0 : Same s c1 c2) (ops : List Op) (legal : Legal call step pre c2 s ops) :
    ∃ c1' c2' outs s', runCalls call c1 ops = some (c1', outs) ∧ runCalls call c2 ops = some (c2', outs) ∧
      SpecRun step s ops outs s' ∧ Same s' c1' c2' := by
  induction ops using List.reverseRecOn with
  | nil => exact ⟨_, _, [], _, rfl, rfl, .nil _, h0⟩
  | append_singleton ops op ih =>
    obtain ⟨q1, q2, outs, m, e1, e2, hr, hs⟩ := ih (fun pre o post hh => legal pre o (post ++ [op]) (by simp [hh]))
    have hp := legal ops op [] rfl q2 outs m e2 hr
    obtain ⟨q1', q2', out, m', f1, f2, hst, hs'⟩ := hstep _ _ _ _ hs hp
    exact ⟨q1', q2', outs ++ [out], m', by rw [runCalls_snoc, e1]; simp [f1], by rw [runCalls_snoc, e2]; simp [f2], hr.snoc hst, hs'⟩

/-- One step of `lastAttached`. -/
def QOp.next (op : QOp H) (p : H × QGraph) : H × QGraph :=
  match op with
  | .attach h G => (h, G)
  | _ => p

theorem lastAttached_snoc (h : H) (G : QGraph) (ops : List (QOp H)) (op : QOp H) :
    lastAttached h G (ops ++ [op]) = QOp.next op (lastAttached h G ops) := by
  simp only [lastAttached, List.foldl_append, List.foldl_cons, List.foldl_nil]
  cases op <;> rfl

theorem run_lastAttached {call : M → QOp H → Option (M × Out)} {step : QState → QOp H → Out → QState → Prop}
    {pre : QState → QOp H → Prop} {c : M} {s : QState} (Rep : M → QState → Prop) (Valid : H → QGraph → Prop) (cur : M → Option H)
    (hstep : ∀ c s op, Rep c s → pre s op →
      ∃ c' out s', call c op = some (c', out) ∧ step s op out s' ∧ Rep c' s')
    (hcur : ∀ c c' h op out, cur c = some h → call c op = some (c', out) → ∀ G, cur c' = some (QOp.next op (h, G)).1)
    (hgraph : ∀ s s' op out, step s op out s' → ∀ h, s'.graph = (QOp.next op (h, s.graph)).2)
    (hval : ∀ s h G, pre s (.attach h G) → Valid h G)
    {h : H} (h0 : Rep c s) (hc : cur c = some h) (hv : Valid h s.graph)
    (ops : List (QOp H)) (legal : Legal call step pre c s ops) :
    ∃ c' outs s', runCalls call c ops = some (c', outs) ∧ SpecRun step s ops outs s' ∧ Rep c' s' ∧
      cur c' = some (lastAttached h s.graph ops).1 ∧ s'.graph = (lastAttached h s.graph ops).2 ∧
      Valid (lastAttached h s.graph ops).1 (lastAttached h s.graph ops).2 := by
  induction ops using List.reverseRecOn with
  | nil => exact ⟨_, [], _, rfl, .nil _, h0, hc, rfl, hv⟩
  | append_singleton ops op ih =>
    obtain ⟨q, outs, m, e, hr, hrep, k1, k2, k3⟩ := ih (fun pre o post hh =>
      legal pre o (post ++ [op]) (by simp [hh]))
    have hp := legal ops op [] rfl q outs m e hr
    obtain ⟨q', out, m', e', hs, hrep'⟩ := hstep _ _ _ hrep hp
    refine ⟨q', outs ++ [out], m', by rw [runCalls_snoc, e]; simp [e'], hr.snoc hs, hrep', ?_, ?_, ?_⟩
    · rw [lastAttached_snoc]; exact hcur _ _ _ _ _ k1 e' _
    · rw [lastAttached_snoc]
      have := hgraph _ _ _ _ hs (lastAttached h s.graph ops).1
      rw [k2] at this
      exact this
    · rw [lastAttached_snoc]
      cases op with
      | attach h' G' => exact hval _ _ _ hp
      | _ => exact k3

theorem qStep_graph {s s' : QState} {op : QOp H} {out : QOut} (h : QStep s op out s') (c : H) : s'.graph = (QOp.next op (c, s.graph)).2 := by
  cases op
  case results => rw [h.1]; rfl
  case resultsToTargets => rw [h.1]; rfl
  case resultsToSources => rw [h.1]; rfl
  case pinnedTargetCount => rw [h.1]; rfl
  case pinnedSourceCount => rw [h.1]; rfl
  case resetSource => obtain ⟨_, _, _, _, rfl⟩ := h; rfl
  case resetTarget => obtain ⟨_, _, _, _, rfl⟩ := h; rfl
  case runToPinnedTargets => obtain ⟨_, _, _, _, rfl⟩ := h; rfl
  case runToPinnedSources => obtain ⟨_, _, _, _, rfl⟩ := h; rfl
  all_goals
    obtain ⟨_, rfl⟩ := h
    rfl

theorem cchStep_graph {s s' : QState} {op : QOp H} {out : QOut} (h : CchStep s op out s') (c : H) :
    s'.graph = (QOp.next op (c, s.graph)).2 := by
  cases op
  case results => rw [h.1]; rfl
  case resultsToTargets => rw [h.1]; rfl
  case resultsToSources => rw [h.1]; rfl
  case pinnedTargetCount => rw [h.1]; rfl
  case pinnedSourceCount => rw [h.1]; rfl
  case resetSource => obtain ⟨_, _, _, _, rfl⟩ := h; rfl
  case resetTarget => obtain ⟨_, _, _, _, rfl⟩ := h; rfl
  case runToPinnedTargets => obtain ⟨_, _, _, _, rfl⟩ := h; rfl
  case runToPinnedSources => obtain ⟨_, _, _, _, rfl⟩ := h; rfl
  all_goals
    obtain ⟨_, rfl⟩ := h
    rfl

/-- The state after a call; the answers do not influence it. -/
def QState.next (s : QState) (op : QOp H) : QState :=
  match op with
  | .reset => QState.fresh s.graph
  | .attach _ G => QState.fresh G
  | .addSource x d => { s with sources := s.sources ++ [(x, d)] }
  | .addTarget x d => { s with targets := s.targets ++ [(x, d)] }
  | .run => { s with mode := .ran }
  | .pinTargets ts => { s with mode := .toTargets ts false }
  | .pinSources ss => { s with mode := .toSources ss false }
  | .resetSource => match s.mode with
    | .toTargets ts _ => { s with mode := .toTargets ts false, sources := [] }
    | _ => s
  | .resetTarget => match s.mode with
    | .toSources ss _ => { s with mode := .toSources ss false, targets := [] }
    | _ => s
  | .runToPinnedTargets => match s.mode with
    | .toTargets ts _ => { s with mode := .toTargets ts true }
    | _ => s
  | .runToPinnedSources => match s.mode with
    | .toSources ss _ => { s with mode := .toSources ss true }
    | _ => s
  | _ => s

theorem qStep_next {s s' : QState} {op : QOp H} {out : QOut} (h : QStep s op out s') : s' = QState.next s op := by
  cases op
  case results => exact h.1
  case resultsToTargets => exact h.1
  case resultsToSources => exact h.1
  case pinnedTargetCount => exact h.1
  case pinnedSourceCount => exact h.1
  case resetSource => obtain ⟨_, _, e, _, rfl⟩ := h; simp only [QState.next, e]
  case resetTarget => obtain ⟨_, _, e, _, rfl⟩ := h; simp only [QState.next, e]
  case runToPinnedTargets => obtain ⟨_, _, e, _, rfl⟩ := h; simp only [QState.next, e]
  case runToPinnedSources => obtain ⟨_, _, e, _, rfl⟩ := h; simp only [QState.next, e]
  all_goals exact h.2

theorem cchStep_next {s s' : QState} {op : QOp H} {out : QOut} (h : CchStep s op out s') : s' = QState.next s op := by
  cases op
  case results => exact h.1
  case resultsToTargets => exact h.1
  case resultsToSources => exact h.1
  case pinnedTargetCount => exact h.1
  case pinnedSourceCount => exact h.1
  case resetSource => obtain ⟨_, _, e, _, rfl⟩ := h; simp only [QState.next, e]
  case resetTarget => obtain ⟨_, _, e, _, rfl⟩ := h; simp only [QState.next, e]
  case runToPinnedTargets => obtain ⟨_, _, e, _, rfl⟩ := h; simp only [QState.next, e]
  case runToPinnedSources => obtain ⟨_, _, e, _, rfl⟩ := h; simp only [QState.next, e]
  all_goals exact h.2

/-- Legality of a given list of calls. -/
theorem legal_of_next {call : M → QOp H → Option (M × Out)} {step : QState → QOp H → Out → QState → Prop} {pre : QState → QOp H → Prop}
    {c : M} {s : QState} {ops : List (QOp H)} (hn : ∀ {s op out s'}, step s op out s' → s' = QState.next s op)
    (h : ∀ i (hi : i < ops.length), pre ((ops.take i).foldl QState.next s) (ops[i])) : Legal call step pre c s ops := by
  have key : ∀ ops outs s', SpecRun step s ops outs s' → s' = ops.foldl QState.next s := by
    intro ops outs s' hr
    induction hr with
    | nil => rfl
    | snoc _ hs ih => rw [List.foldl_append, ← ih]; exact hn hs
  intro before op after e c' outs s' _ hr
  have := h before.length (by rw [e]; simp)
  rw [key _ _ _ hr]
  subst e
  simpa using this

end RK
