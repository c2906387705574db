import Verif.Spec.History
import Mathlib.Data.List.Induction
/-! Forward simulation implies `Spec.Implements`. -/
namespace RK
open Spec
variable {σ M Op Out : Type}

theorem runCalls_snoc (call : M → Op → Option (M × Out)) (c : M) (ops : List Op) (op : Op) :
    runCalls call c (ops ++ [op]) = (runCalls call c ops).bind fun r =>
      (call r.1 op).map fun r' => (r'.1, r.2 ++ [r'.2]) := by
  unfold runCalls
  rw [List.foldlM_append]
  simp only [List.foldlM_cons, List.foldlM_nil, Option.bind_eq_bind]
  congr 1
  funext r
  cases call r.1 op <;> rfl

theorem run_of_simulation {call : M → Op → Option (M × Out)}
    {step : σ → Op → Out → σ → Prop} {pre : σ → Op → Prop} {c : M} {s : σ} (Rep : M → σ → Prop)
    (h0 : Rep c s)
    (hstep : ∀ c s op, Rep c s → pre s op →
      ∃ c' out s', call c op = some (c', out) ∧ step s op out s' ∧ Rep c' s')
    (ops : List Op) (legal : Legal call step pre c s ops) :
    ∃ c' outs s', runCalls call c ops = some (c', outs) ∧
      SpecRun step s ops outs s' ∧ Rep c' s' := by
  induction ops using List.reverseRecOn with
  | nil => exact ⟨_, [], _, rfl, .nil _, h0⟩
  | append_singleton ops op ih =>
    obtain ⟨q, outs, m, e, hr, hrep⟩ := ih (fun pre o post hh =>
      legal pre o (post ++ [op]) (by simp [hh]))
    have hp := legal ops op [] rfl q outs m e hr
    obtain ⟨q', out, m', e', hs, hrep'⟩ := hstep _ _ _ hrep hp
    exact ⟨q', outs ++ [out], m', by rw [runCalls_snoc, e]; simp [e'], hr.snoc hs, hrep'⟩

theorem implements_of_simulation {call : M → Op → Option (M × Out)}
    {step : σ → Op → Out → σ → Prop} {pre : σ → Op → Prop} {c : M} {s : σ} (Rep : M → σ → Prop)
    (h0 : Rep c s)
    (hstep : ∀ c s op, Rep c s → pre s op →
      ∃ c' out s', call c op = some (c', out) ∧ step s op out s' ∧ Rep c' s') :
    Implements call step pre c s := by
  intro ops legal
  obtain ⟨c', outs, s', h1, h2, _⟩ := run_of_simulation Rep h0 hstep ops legal
  exact ⟨c', outs, s', h1, h2⟩

theorem specRun_nil_inv {step : σ → Op → Out → σ → Prop} {s s' : σ} {outs : List Out}
    (h : SpecRun step s [] outs s') : s' = s := by
  generalize hops : ([] : List Op) = ops at h
  cases h with
  | nil => rfl
  | snoc h1 h2 => simp at hops

theorem specRun_snoc_inv {step : σ → Op → Out → σ → Prop} {s s' : σ} {ops : List Op} {op : Op}
    {outs : List Out} (h : SpecRun step s (ops ++ [op]) outs s') :
    ∃ outs' out s'', SpecRun step s ops outs' s'' ∧ step s'' op out s' := by
  generalize hops : ops ++ [op] = ops' at h
  cases h with
  | nil => simp at hops
  | snoc h1 h2 =>
    obtain ⟨rfl, h3⟩ := List.append_inj' hops rfl
    cases h3
    exact ⟨_, _, _, h1, h2⟩

/-- Sufficient condition for legality that does not mention the implementation. -/
theorem legal_of_spec {call : M → Op → Option (M × Out)} {step : σ → Op → Out → σ → Prop}
    {pre : σ → Op → Prop} {c : M} {s : σ} {ops : List Op}
    (h : ∀ before op after, ops = before ++ op :: after → ∀ outs s',
      SpecRun step s before outs s' → pre s' op) : Legal call step pre c s ops :=
  fun b o a e _ outs s' _ hr => h b o a e outs s' hr

end RK
