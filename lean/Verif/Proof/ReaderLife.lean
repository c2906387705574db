import Verif.Model.ReaderLife
import Verif.Proof.History
/-! # Proofs about the life of asynchronous readers -/
namespace RK
open _root_.Spec

/-- The records that exist are complete; each is held by exactly one variable, except for `old` which is held by none. -/
structure RepLife (vars : List (Option Nat)) (heap : List ReaderImpl) (next : Nat) (old : Option Nat) : Prop where
  lt : ∀ r ∈ heap, r.id < next
  good : ∀ r ∈ heap, r.hasBuffer = true ∧ r.joinable = true
  nodup : (heap.map (·.id)).Nodup
  inj : ∀ (i j id : Nat), vars[i]? = some (some id) → vars[j]? = some (some id) → i = j
  mem : ∀ id, id ∈ heap.map (·.id) ↔ ((∃ i : Nat, vars[i]? = some (some id)) ∨ old = some id)
  loose : ∀ id, old = some id → ∀ i : Nat, vars[i]? ≠ some (some id)

theorem RepLife.swap {vars heap next p old} {i : Nat} (h : RepLife vars heap next p) (hi : vars[i]? = some old) :
    RepLife (vars.set i p) heap next old := by
  have hlt : i < vars.length := (List.getElem?_eq_some_iff.mp hi).1
  have key : ∀ j id : Nat, (vars.set i p)[j]? = some (some id) ↔
      (j = i ∧ p = some id) ∨ (j ≠ i ∧ vars[j]? = some (some id)) := by
    intro j id
    rw [List.getElem?_set]
    by_cases e : i = j
    · subst e; simp [hlt]
    · have e' : j ≠ i := fun x => e x.symm
      simp [e, e']
  refine ⟨h.lt, h.good, h.nodup, ?_, ?_, ?_⟩
  · intro a b id ha hb
    rcases (key a id).1 ha with ⟨a1, a2⟩ | ⟨a1, a2⟩ <;> rcases (key b id).1 hb with ⟨b1, b2⟩ | ⟨b1, b2⟩
    · omega
    · exact absurd b2 (h.loose id a2 b)
    · exact absurd a2 (h.loose id b2 a)
    · exact h.inj a b id a2 b2
  · intro id
    rw [h.mem id]
    constructor
    · rintro (⟨j, hj⟩ | hp)
      · by_cases e : j = i
        · subst e; right; rw [hi] at hj; exact Option.some.inj hj
        · left; exact ⟨j, (key j id).2 (.inr ⟨e, hj⟩)⟩
      · left; exact ⟨i, (key i id).2 (.inl ⟨rfl, hp⟩)⟩
    · rintro (⟨j, hj⟩ | ho)
      · rcases (key j id).1 hj with ⟨_, e⟩ | ⟨_, e⟩
        · exact .inr e
        · exact .inl ⟨j, e⟩
      · left; exact ⟨i, by rw [hi, ho]⟩
  · intro id ho j hj
    rcases (key j id).1 hj with ⟨_, e⟩ | ⟨e1, e2⟩
    · exact h.loose id e i (by rw [hi, ho])
    · exact e1 (h.inj j i id e2 (by rw [hi, ho]))

theorem RepLife.append {vars heap next p} (h : RepLife vars heap next p) : RepLife (vars ++ [p]) heap next none := by
  have key : ∀ j id : Nat, (vars ++ [p])[j]? = some (some id) ↔
      (j = vars.length ∧ p = some id) ∨ vars[j]? = some (some id) := by
    intro j id
    rw [List.getElem?_append]
    by_cases e : j < vars.length
    · have : j ≠ vars.length := by omega
      simp [e, this]
    · have e2 : vars[j]? = none := List.getElem?_eq_none (by omega)
      rw [if_neg e, e2]
      by_cases e3 : j = vars.length
      · subst e3; simp
      · have : j - vars.length ≠ 0 := by omega
        rw [List.getElem?_eq_none (by simp; omega)]
        simp [e3]
  refine ⟨h.lt, h.good, h.nodup, ?_, ?_, by simp⟩
  · intro a b id ha hb
    rcases (key a id).1 ha with ⟨a1, a2⟩ | a2 <;> rcases (key b id).1 hb with ⟨b1, b2⟩ | b2
    · omega
    · exact absurd b2 (h.loose id a2 b)
    · exact absurd a2 (h.loose id b2 a)
    · exact h.inj a b id a2 b2
  · intro id
    rw [h.mem id]
    constructor
    · rintro (⟨j, hj⟩ | hp)
      · exact .inl ⟨j, (key j id).2 (.inr hj)⟩
      · exact .inl ⟨vars.length, (key _ id).2 (.inl ⟨rfl, hp⟩)⟩
    · rintro (⟨j, hj⟩ | ho)
      · rcases (key j id).1 hj with ⟨_, e⟩ | e
        · exact .inr e
        · exact .inl ⟨j, e⟩
      · cases ho

theorem RepLife.create {vars heap next} (h : RepLife vars heap next none) :
    RepLife vars (⟨next, true, true⟩ :: heap) (next + 1) (some next) := by
  have fresh : next ∉ heap.map (·.id) := by
    intro hm
    obtain ⟨r, hr, e⟩ := List.mem_map.mp hm
    have := h.lt r hr
    omega
  refine ⟨?_, ?_, ?_, h.inj, ?_, ?_⟩
  · intro r hr
    rcases List.mem_cons.mp hr with rfl | hr
    · simp
    · have := h.lt r hr; omega
  · intro r hr
    rcases List.mem_cons.mp hr with rfl | hr
    · simp
    · exact h.good r hr
  · exact List.nodup_cons.mpr ⟨fresh, h.nodup⟩
  · intro id
    rw [List.map_cons, List.mem_cons, h.mem id]
    constructor
    · rintro (rfl | h1 | h1)
      · exact .inr rfl
      · exact .inl h1
      · cases h1
    · rintro (h1 | h1)
      · exact .inr (.inl h1)
      · exact .inl (Option.some.inj h1).symm
  · intro id e j hj
    cases e
    exact fresh ((h.mem next).2 (.inl ⟨j, hj⟩))

theorem RepLife.release {vars heap next old} (h : RepLife vars heap next old) :
    ∃ heap', ReaderWorld.release ⟨vars, heap, next⟩ old = some (⟨vars, heap', next⟩, .ended old.toList) ∧
      RepLife vars heap' next none := by
  cases old with
  | none => exact ⟨heap, rfl, h⟩
  | some id =>
    refine ⟨heap.filter fun r => r.id ≠ id, ?_, ?_⟩
    · obtain ⟨r, hr, e⟩ := List.mem_map.mp ((h.mem id).2 (.inr rfl))
      have hd : destroyImpl heap id = .done (heap.filter fun r => r.id ≠ id) := by
        unfold destroyImpl
        cases hf : heap.find? (fun r => decide (r.id = id)) with
        | none =>
          have := List.find?_eq_none.mp hf r hr
          simp [e] at this
        | some q =>
          have hq := h.good q (List.mem_of_find?_eq_some hf)
          simp [hq.1, hq.2]
      simp only [ReaderWorld.release, hd]
      rfl
    · refine ⟨fun r hr => h.lt r (List.mem_filter.mp hr).1, fun r hr => h.good r (List.mem_filter.mp hr).1,
        h.nodup.sublist (List.filter_sublist.map _), h.inj, ?_, by simp⟩
      intro x
      constructor
      · intro hx
        obtain ⟨r, hr, e⟩ := List.mem_map.mp hx
        obtain ⟨h1, h2⟩ := List.mem_filter.mp hr
        rcases (h.mem x).1 (List.mem_map.mpr ⟨r, h1, e⟩) with h3 | h3
        · exact .inl h3
        · cases h3; simp [e] at h2
      · rintro (⟨j, hj⟩ | hx)
        · obtain ⟨r, hr, e⟩ := List.mem_map.mp ((h.mem x).2 (.inl ⟨j, hj⟩))
          refine List.mem_map.mpr ⟨r, List.mem_filter.mpr ⟨hr, ?_⟩, e⟩
          have : r.id ≠ id := by
            intro e2
            exact h.loose id rfl j (by rw [hj, ← e, e2])
          simp [this]
        · cases hx

/-- The simulation relation. -/
def RepReaders (w : ReaderWorld) (s : ReaderVars) : Prop :=
  w.vars = s.vars ∧ w.next = s.next ∧ RepLife w.vars w.heap w.next none

theorem readers_step (w : ReaderWorld) (s : ReaderVars) (op : ReaderOp) (hr : RepReaders w s) (hp : ReaderPre s op) :
    ∃ w' out s', w.call op = some (w', out) ∧ ReaderStep s op out s' ∧ RepReaders w' s' := by
  obtain ⟨vars, heap, next⟩ := w
  obtain ⟨vars', next'⟩ := s
  obtain ⟨e1, e2, h⟩ := hr
  simp only at e1 e2 h
  subst e1 e2
  cases op with
  | empty => exact ⟨_, _, _, rfl, ⟨rfl, rfl⟩, rfl, rfl, h.append⟩
  | construct l =>
    rcases hp with rfl | rfl
    · exact ⟨_, _, _, rfl, ⟨rfl, rfl⟩, rfl, rfl, h.create.append⟩
    · exact ⟨_, _, _, rfl, ⟨rfl, rfl⟩, rfl, rfl, h⟩
  | moveConstruct i =>
    have hp' : i < vars.length := hp
    have hi : vars[i]? = some vars[i] := List.getElem?_eq_getElem hp'
    refine ⟨⟨vars.set i none ++ [vars[i]], heap, next⟩, .ended [], ⟨vars.set i none ++ [vars[i]], next⟩, ?_,
      ⟨_, hi, rfl, rfl⟩, rfl, rfl, (h.swap hi).append⟩
    simp [ReaderWorld.call, rd_lt hp', wr_lt hp']
  | moveAssign i j =>
    obtain ⟨hi, hj⟩ := hp
    simp only at hi hj
    have gi : vars[i]? = some vars[i] := List.getElem?_eq_getElem hi
    have gj : vars[j]? = some vars[j] := List.getElem?_eq_getElem hj
    have hi' : i < (vars.set j none).length := by simpa using hi
    have gi' : (vars.set j none)[i]? = some (vars.set j none)[i] := List.getElem?_eq_getElem hi'
    obtain ⟨heap', hrel, hrep⟩ := ((h.swap gj).swap gi').release
    refine ⟨⟨(vars.set j none).set i vars[j], heap', next⟩, .ended ((vars.set j none)[i]).toList,
      ⟨(vars.set j none).set i vars[j], next⟩, ?_, ⟨_, _, gi, gj, ?_, ?_⟩, rfl, rfl, hrep⟩
    · simp only [ReaderWorld.call, rd_lt hj, wr_lt hj, rd_lt hi', wr_lt hi', Option.bind_eq_bind, Option.bind_some]
      exact hrel
    · intro e
      subst e
      constructor
      · simp
      · simp
    · intro ne
      constructor
      · rw [List.getElem_set_ne (fun e => ne e.symm)]
      · rw [List.set_comm _ _ (fun e => ne e.symm)]
  | destroy i =>
    have hi : i < vars.length := hp
    have gi : vars[i]? = some vars[i] := List.getElem?_eq_getElem hi
    obtain ⟨heap', hrel, hrep⟩ := (h.swap gi).release
    refine ⟨⟨vars.set i none, heap', next⟩, .ended vars[i].toList, ⟨vars.set i none, next⟩, ?_, ⟨_, gi, rfl, rfl⟩, rfl, rfl, hrep⟩
    simp only [ReaderWorld.call, rd_lt hi, wr_lt hi, Option.bind_eq_bind, Option.bind_some]
    exact hrel

theorem readers_start : RepReaders ⟨[], [], 0⟩ ⟨[], 0⟩ :=
  ⟨rfl, rfl, by simp, by simp, by simp, by simp, by simp, by simp⟩

end RK
