import Verif.Proof.IdSetQueue
import Verif.Proof.History
import Verif.Spec.IdSet
/-! # Property theorems C03 (id_set_queue.h) -/
namespace RK.Props
open Spec

/-- Performs one call on the model. -/
def idSetCall (q : IDSetMinQueue) : IdSetOp → Option (IDSetMinQueue × IdSetOut)
  | .push id => (q.push id).map (·, .unit)
  | .pop => q.pop.map fun r => (r.1, .id r.2)
  | .contains id => (q.contains id).map fun b => (q, .flag b)
  | .peek => some (q, .id q.peek)
  | .empty => some (q, .flag q.empty)
  | .clear => q.clear.map (·, .unit)

/-- C03. A fresh `IDSetMinQueue` over `n < 2^31 - 1` ids is constructed without undefined behaviour,
and serves every history of calls that respect their preconditions (valid ids, `pop` only on a
non-empty queue) as a finite set of ids. -/
theorem C03_id_set_min_queue (n : Nat) (hn : n < 2 ^ 31 - 1) :
    ∃ q, IDSetMinQueue.new n = some q ∧
      Implements idSetCall IdSetStep (IdSetPre n) q (fun _ => False) := by
  obtain ⟨q, e, h⟩ := IDSetMinQueue.rep_new (n := n) (by omega)
  refine ⟨q, e, ?_⟩
  refine implements_of_simulation
    (fun q P => ∃ S : Nat → Bool, q.Rep n S ∧ ∀ i, P i ↔ S i = true) ⟨_, h, by simp⟩ ?_
  rintro q P op ⟨S, h, hP⟩ hp
  cases op with
  | push id =>
    obtain ⟨q', e, h'⟩ := h.push hp
    exact ⟨q', _, fun i => P i ∨ i = id, by simp only [idSetCall, e, Option.map_some],
      ⟨rfl, fun _ => Iff.rfl⟩, _, h', by intro i; simp [hP]⟩
  | pop =>
    obtain ⟨q', id, e, h1, h2, h3⟩ := h.pop (by
      obtain ⟨id, hid⟩ := hp
      exact ⟨id, (hP id).1 hid⟩)
    exact ⟨q', _, fun i => P i ∧ i ≠ id, by simp only [idSetCall, e, Option.map_some],
      ⟨id, rfl, ⟨(hP id).2 h1, fun i hi => h2 i ((hP i).1 hi)⟩, fun _ => Iff.rfl⟩, _, h3,
      by intro i; simp [hP]⟩
  | contains id =>
    exact ⟨q, _, P, by simp only [idSetCall, h.contains hp, Option.map_some],
      ⟨⟨_, rfl, (hP id).symm⟩, fun _ => Iff.rfl⟩, _, h, hP⟩
  | peek =>
    refine ⟨q, _, P, rfl, ⟨⟨_, rfl, ?_, ?_⟩, fun _ => Iff.rfl⟩, _, h, hP⟩
    · rintro ⟨i, hi⟩
      have hm : q.minId ≠ invalidId := by
        intro hm
        have := h.min_none hm i
        rw [(hP i).1 hi] at this; cases this
      obtain ⟨h1, h2⟩ := h.min_some hm
      exact ⟨(hP _).2 h1, fun i hi => h2 i ((hP i).1 hi)⟩
    · intro hall
      by_contra hm
      exact hall _ ((hP _).2 (h.min_some hm).1)
  | empty =>
    refine ⟨q, _, P, rfl, ⟨⟨_, rfl, ?_⟩, fun _ => Iff.rfl⟩, _, h, hP⟩
    rw [h.empty_iff]
    constructor
    · intro hh i hi; rw [hP, hh] at hi; cases hi
    · intro hh i
      by_contra hc
      exact hh i ((hP i).2 (by simpa using hc))
  | clear =>
    obtain ⟨q', e, h'⟩ := h.clear
    exact ⟨q', _, fun _ => False, by simp only [idSetCall, e, Option.map_some],
      ⟨rfl, fun _ => id⟩, _, h', by simp⟩

/-- Non-vacuity: a concrete history on an odd number of ids. -/
example : ((IDSetMinQueue.new 5).bind fun q => runCalls idSetCall q
    [.push 4, .push 1, .push 4, .push 3, .peek, .pop, .contains 1, .pop, .pop, .empty, .peek]).map
      (·.2) = some [.unit, .unit, .unit, .unit, .id 1, .id 1, .flag false, .id 3, .id 4, .flag true,
        .id 4294967295] := by decide

/-- The legality hypothesis is satisfiable. -/
example (q : IDSetMinQueue) : Legal idSetCall IdSetStep (IdSetPre 5) q (fun _ => False)
    [.push 4, .pop] := by
  refine legal_of_spec ?_
  intro pre op post hh outs m hr
  match pre, hh with
  | [], hh => cases hh; exact (by decide : 4 < 5)
  | [a], hh =>
    cases hh
    obtain ⟨_, _, _, h1, h2⟩ := specRun_snoc_inv (ops := []) hr
    exact ⟨4, (h2.2 4).2 (Or.inr rfl)⟩
  | a :: b :: rest, hh => simp at hh

/-- Limit of the claim: with 2^31 - 1 or 2^31 ids the computed array size wraps around to 0 in 32 bit
arithmetic, so the constructor allocates an empty array. -/
theorem C03_array_size_wraps :
    add32 (add32 (2 ^ 31 - 1) (2 ^ 31)) ((2 ^ 31 - 1) % 2) = 0 ∧
    add32 (add32 (2 ^ 31) (2 ^ 31)) (2 ^ 31 % 2) = 0 := by decide

/-- The comment of `pop` promises `invalid_id` on an empty queue; the code asserts instead, i.e. the
call has no defined result. -/
theorem C03_pop_empty_undefined :
    ((IDSetMinQueue.new 4).bind fun q => q.pop) = none := by decide

end RK.Props
