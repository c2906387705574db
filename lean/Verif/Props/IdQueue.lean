import Verif.Proof.IdQueue
import Verif.Proof.History
import Verif.Spec.PriorityQueue
/-! # Property theorems C01 (id_queue.h) -/
namespace RK.Props
open Spec

/-- Performs one call on the model; `none` stands for undefined behaviour or a failed assertion. -/
def pqCall (q : MinIDQueue) : PQOp → Option (MinIDQueue × PQOut)
  | .push id key => (q.push ⟨id, key⟩).map (·, .unit)
  | .decreaseKey id key => (q.decreaseKey ⟨id, key⟩).map fun r => (r.1, .flag r.2)
  | .increaseKey id key => (q.increaseKey ⟨id, key⟩).map fun r => (r.1, .flag r.2)
  | .pop => q.pop.map fun r => (r.1, .entry r.2.id r.2.key)
  | .peek => q.peek.map fun e => (q, .entry e.id e.key)
  | .clear => q.clear.map (·, .unit)
  | .containsId id => (q.containsId id).map fun b => (q, .flag b)
  | .getKey id => (q.getKey id).map fun k => (q, .num k)
  | .size => some (q, .num q.size)
  | .empty => some (q, .flag q.empty)

theorem pqCall_spec {q : MinIDQueue} {n : Nat} {m : PMap} (h : q.Rep n m) {op : PQOp}
    (hp : PQPre n m op) :
    ∃ q' out m', pqCall q op = some (q', out) ∧ PQStep n m op out m' ∧ q'.Rep n m' := by
  cases op with
  | push id key =>
    obtain ⟨q', e, h'⟩ := h.push (p := ⟨id, key⟩) hp.1 hp.2
    exact ⟨q', _, _, by simp only [pqCall, e, Option.map_some], ⟨rfl, rfl⟩, h'⟩
  | decreaseKey id key =>
    obtain ⟨k, hk⟩ := Option.ne_none_iff_exists'.1 hp
    obtain ⟨q', e, h'⟩ := h.decreaseKey (p := ⟨id, key⟩) hk
    refine ⟨q', _, _, by simp only [pqCall, e, Option.map_some]; rfl, ?_, h'⟩
    refine ⟨k, hk, ?_⟩
    simp only
    by_cases hlt : key < k
    · rw [if_pos hlt]
      refine ⟨by simp [hlt], ?_⟩
      funext i; simp only [PMap.insert, Nat.min_eq_right (Nat.le_of_lt hlt)]
    · rw [if_neg hlt]
      refine ⟨by simp [hlt], ?_⟩
      funext i
      split
      · rename_i hi; rw [hi, hk, Nat.min_eq_left (by omega)]
      · rfl
  | increaseKey id key =>
    obtain ⟨k, hk⟩ := Option.ne_none_iff_exists'.1 hp
    obtain ⟨q', e, h'⟩ := h.increaseKey (p := ⟨id, key⟩) hk
    refine ⟨q', _, _, by simp only [pqCall, e, Option.map_some]; rfl, ?_, h'⟩
    refine ⟨k, hk, ?_⟩
    simp only
    by_cases hlt : k < key
    · rw [if_pos hlt]
      refine ⟨by simp [hlt], ?_⟩
      funext i; simp only [PMap.insert, Nat.max_eq_right (Nat.le_of_lt hlt)]
    · rw [if_neg hlt]
      refine ⟨by simp [hlt], ?_⟩
      funext i
      split
      · rename_i hi; rw [hi, hk, Nat.max_eq_left (by omega)]
      · rfl
  | pop =>
    obtain ⟨q', e, e1, h1, h2, h3⟩ := h.pop hp
    exact ⟨q', _, _, by simp only [pqCall, e1, Option.map_some],
      ⟨e.id, e.key, rfl, ⟨h1, h2⟩, rfl⟩, h3⟩
  | peek =>
    obtain ⟨e, e1, h1, h2⟩ := h.peek hp
    exact ⟨q, _, _, by simp only [pqCall, e1, Option.map_some],
      ⟨e.id, e.key, rfl, ⟨h1, h2⟩, rfl⟩, h⟩
  | clear =>
    obtain ⟨q', e, h'⟩ := h.clear
    exact ⟨q', _, _, by simp only [pqCall, e, Option.map_some], ⟨rfl, rfl⟩, h'⟩
  | containsId id =>
    exact ⟨q, _, _, by simp only [pqCall, h.containsId hp, Option.map_some]; rfl,
      ⟨_, rfl, by cases m id <;> simp, rfl⟩, h⟩
  | getKey id =>
    obtain ⟨k, hk⟩ := Option.ne_none_iff_exists'.1 hp
    exact ⟨q, _, _, by simp only [pqCall, h.getKey hk, Option.map_some], ⟨k, rfl, hk, rfl⟩, h⟩
  | size => exact ⟨q, _, _, rfl, ⟨by rw [h.size]; rfl, rfl⟩, h⟩
  | empty => exact ⟨q, _, _, rfl, ⟨_, rfl, h.empty_iff, rfl⟩, h⟩

/-- C01. On a fresh queue over at most 2^30 ids, every history of calls in which each call respects
its precondition with respect to the contents resulting from the earlier calls and their answers,
executes without undefined behaviour and answers as a finite map from ids to keys would. -/
theorem C01_min_id_queue (n : Nat) (hn : n ≤ 2 ^ 30) :
    Implements pqCall (PQStep n) (PQPre n) (MinIDQueue.new n) PMap.empty :=
  implements_of_simulation (fun q m => q.Rep n m)
    (MinIDQueue.rep_new (by simpa [MinIDQueue.maxIds] using hn))
    (fun _ _ _ h hp => pqCall_spec h hp)

/-- Non-vacuity: a history with ties, key changes and pops. -/
example : (runCalls pqCall (MinIDQueue.new 6) [.push 3 10, .push 5 7, .push 0 7, .push 1 20,
    .push 2 15, .push 4 9, .decreaseKey 1 8, .increaseKey 5 30, .pop, .pop, .peek, .size,
    .containsId 5, .getKey 5]).map (·.2) =
    some [.unit, .unit, .unit, .unit, .unit, .unit, .flag true, .flag true, .entry 0 7, .entry 1 8,
      .entry 4 9, .num 4, .flag true, .num 30] := by decide

/-- The legality hypothesis is satisfiable. -/
example : Legal pqCall (PQStep 2) (PQPre 2) (MinIDQueue.new 2) PMap.empty
    [PQOp.push 0 4, .push 1 4, .pop] := by
  refine legal_of_spec ?_
  intro pre op post hh outs m hr
  match pre, hh with
  | [], hh =>
    cases hh
    rw [specRun_nil_inv hr]; exact ⟨by decide, rfl⟩
  | [a], hh =>
    cases hh
    obtain ⟨_, _, _, h1, h2⟩ := specRun_snoc_inv (ops := []) hr
    rw [specRun_nil_inv h1] at h2
    rw [h2.2]; exact ⟨by decide, rfl⟩
  | [a, b], hh =>
    cases hh
    obtain ⟨_, _, _, h1, h2⟩ := specRun_snoc_inv (ops := [PQOp.push 0 4]) hr
    rw [h2.2]; exact ⟨1, by simp [PMap.insert]⟩
  | a :: b :: c :: rest, hh => simp at hh

/-- Limit of the claim: for more than 2^30 ids the position of the first child of a heap slot wraps
around in 32 bit arithmetic. -/
theorem C01_child_index_wraps : add32 (mul32 4 (2 ^ 30)) 1 = 1 := by decide

end RK.Props
