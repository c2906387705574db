import Verif.Model.Speedtest
import Verif.Spec.Speedtest
import Verif.Proof.DimacsExport
import Verif.Spec.OsmReport
/-! # Proofs about the speedtest of the PBF reader -/
namespace RK
open _root_.Spec Osm

/-- The kind of object in a call of a callback. -/
def OsmEvent.kind : OsmEvent → OsmKind
  | .node .. => .node
  | .way .. => .way
  | .relation .. => .relation

theorem Reported.kind {e : OsmEvent} {i : OsmItem} (h : Reported e i) : e.kind = i.kind := by
  cases e <;> cases i <;> first | rfl | exact h.elim

theorem shows_setw9 (n : Nat) : Shows (setw9 n) n := ⟨printNat n, isDecimal_printNat n, rfl⟩

/-- The counters hold the numbers of the objects in `part`. -/
def SpeedState.Counts (s : SpeedState) (part : List OsmKind) : Prop :=
  s.nodes = part.count .node ∧ s.ways = part.count .way ∧ s.relations = part.count .relation

/-- A state with one more object. -/
def SpeedState.count (s : SpeedState) : OsmKind → SpeedState
  | .node => { s with nodes := s.nodes + 1 }
  | .way => { s with ways := s.ways + 1 }
  | .relation => { s with relations := s.relations + 1 }

theorem speedCallback_eq (s : SpeedState) (e : OsmEvent × Int) :
    speedCallback s e = produceReport e.2 (s.count e.1.kind) := by
  obtain ⟨e, t⟩ := e
  cases e <;> rfl

theorem SpeedState.Counts.snoc {s : SpeedState} {part : List OsmKind} (h : s.Counts part) (k : OsmKind) :
    (s.count k).Counts (part ++ [k]) ∧ (s.count k).log = s.log ∧ (s.count k).lastReport = s.lastReport := by
  obtain ⟨h1, h2, h3⟩ := h
  cases k <;> simp [SpeedState.Counts, SpeedState.count, h1, h2, h3, List.count_append, List.count_singleton]

/-- The loop over the callbacks, in a state in which the objects in `before` have not been reported yet. -/
theorem speed_loop (es : List (OsmEvent × Int)) : ∀ (s : SpeedState) (before : List (OsmKind × Int)),
    s.Counts (before.map (·.1)) → (∀ o ∈ before, o.2 ≤ s.lastReport + 1000000) →
    ∃ ts rest, (es.foldl speedCallback s).log = s.log ++ ts ∧
      SpeedReports s.lastReport (before ++ es.map fun e => (e.1.kind, e.2)) ts rest := by
  induction es with
  | nil =>
    intro s before _ h
    refine ⟨[], before, by simp, ?_⟩
    simp only [List.map_nil, List.append_nil]
    exact .quiet h
  | cons e es ih =>
    intro s before hc h
    obtain ⟨c1, c2, c3⟩ := hc.snoc e.1.kind
    rw [List.foldl_cons, speedCallback_eq]
    by_cases late : e.2 - s.lastReport > 1000000
    · have hp : produceReport e.2 (s.count e.1.kind) = ⟨0, 0, 0, e.2, s.log ++ ["Read ".toList ++ setw9 (s.count e.1.kind).nodes ++
          " nodes, ".toList ++ setw9 (s.count e.1.kind).ways ++ " ways, ".toList ++ setw9 (s.count e.1.kind).relations ++
          " relations last second".toList]⟩ := by
        unfold produceReport
        rw [c3, if_pos late, c2]
      rw [hp]
      obtain ⟨ts, rest, h1, h2⟩ := ih ⟨0, 0, 0, e.2, s.log ++ ["Read ".toList ++ setw9 (s.count e.1.kind).nodes ++
          " nodes, ".toList ++ setw9 (s.count e.1.kind).ways ++ " ways, ".toList ++ setw9 (s.count e.1.kind).relations ++
          " relations last second".toList]⟩ [] ⟨rfl, rfl, rfl⟩ (by simp)
      refine ⟨_ :: ts, rest, h1.trans (List.append_assoc s.log [_] ts), ?_⟩
      refine .report h (by simp only; omega) ?_ h2
      rw [List.map_append, List.map_singleton]
      refine ⟨_, _, _, ?_, ?_, ?_, rfl⟩
      · rw [← c1.1]; exact shows_setw9 _
      · rw [← c1.2.1]; exact shows_setw9 _
      · rw [← c1.2.2]; exact shows_setw9 _
    · have hp : produceReport e.2 (s.count e.1.kind) = s.count e.1.kind := by
        unfold produceReport
        rw [c3, if_neg late]
      rw [hp]
      obtain ⟨ts, rest, h1, h2⟩ := ih (s.count e.1.kind) (before ++ [(e.1.kind, e.2)]) (by simpa using c1) (by
        intro o ho
        rw [c3]
        rcases List.mem_append.mp ho with ho | ho
        · exact h o ho
        · rw [List.mem_singleton.mp ho]; simp only; omega)
      refine ⟨ts, rest, by rw [h1, c2], ?_⟩
      rw [c3] at h2
      simpa using h2

theorem timed_events (clock : Nat → Int) (es : List OsmEvent) :
    (es.zipIdx.map fun e => (e.1, clock e.2)).map (fun e => (e.1.kind, e.2)) = timed clock (es.map OsmEvent.kind) := by
  unfold timed
  rw [List.zipIdx_map, List.map_map, List.map_map]
  rfl

theorem kinds_of_reported {es : List OsmEvent} {is : List OsmItem} (h : List.Forall₂ Reported es is) :
    es.map OsmEvent.kind = is.map OsmItem.kind := by
  induction h with
  | nil => rfl
  | cons h _ ih => rw [List.map_cons, List.map_cons, ih, Reported.kind h]

end RK
