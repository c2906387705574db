import Verif.Proof.TimestampFlags
import Verif.Spec.Flags
/-! # Property theorems C02 (timestamp_flag.h) -/
namespace RK.Props
open Spec

/-- Performs one call on the model. -/
def flagStep (f : TimestampFlags) : FlagOp → Option TimestampFlags
  | .set i => f.set i
  | .resetOne i => f.resetOne i
  | .resetAll => some f.resetAll

/-- C02. After every sequence of calls with valid ids, `is_set(id)` tells whether `id` was set since
it was last reset. The length of the history is unbounded, so the 16-bit wrap-around of the timestamp
is covered. -/
theorem C02_timestamp_flags (n : Nat) (ops : List FlagOp) (hv : ∀ op ∈ ops, op.valid n) :
    ∃ f, ops.foldlM flagStep (TimestampFlags.new n) = some f ∧
      ∀ id, id < n → f.isSet id = some (flagAfter ops id) := by
  suffices H : ∀ (ops : List FlagOp) (f : TimestampFlags) (S : Nat → Bool), f.Rep n S →
      (∀ op ∈ ops, op.valid n) →
      ∃ f', ops.foldlM flagStep f = some f' ∧ f'.Rep n (fun id =>
        ops.foldl (flagOpStep id) (S id)) by
    obtain ⟨f, e, h⟩ := H ops _ _ (TimestampFlags.rep_new n) hv
    exact ⟨f, e, fun id hid => h.isSet hid⟩
  intro ops
  induction ops with
  | nil => intro f S h _; exact ⟨f, rfl, h⟩
  | cons op ops ih =>
    intro f S h hv
    have hop := hv op (by simp)
    have hrest : ∀ op ∈ ops, op.valid n := fun o ho => hv o (by simp [ho])
    have step : ∃ f', flagStep f op = some f' ∧ f'.Rep n (fun id => flagOpStep id (S id) op) := by
      cases op with
      | set i =>
        obtain ⟨f', e, h'⟩ := h.set hop
        refine ⟨f', e, ?_⟩
        simpa only [flagOpStep, eq_comm] using h'
      | resetOne i =>
        obtain ⟨f', e, h'⟩ := h.resetOne hop
        refine ⟨f', e, ?_⟩
        simpa only [flagOpStep, eq_comm] using h'
      | resetAll => exact ⟨_, rfl, h.resetAll⟩
    obtain ⟨f', e, h'⟩ := step
    obtain ⟨f'', e', h''⟩ := ih f' _ h' hrest
    refine ⟨f'', ?_, ?_⟩
    · simp [List.foldlM_cons, e, e']
    · simpa only [List.foldl_cons] using h''

/-- Non-vacuity: a concrete history. -/
example : (∀ op ∈ [FlagOp.set 1, .resetAll, .set 2, .set 0, .resetOne 0], op.valid 3) ∧
    flagAfter [FlagOp.set 1, .resetAll, .set 2, .set 0, .resetOne 0] 2 = true ∧
    flagAfter [FlagOp.set 1, .resetAll, .set 2, .set 0, .resetOne 0] 1 = false := by
  simp [FlagOp.valid, flagAfter, flagOpStep]

end RK.Props
