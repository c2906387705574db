import Verif.Proof.Verify
/-! # Property theorems C66 (verify.cpp: the checks of the command line tools) -/
namespace RK.Props
open RK _root_.Spec

/-- C66, graphs: exactly the adjacency arrays are accepted.
Partial: other input is reported except for an empty offset vector, see `C66_graph_undefined_iff`. -/
theorem C66_graph_accepted_iff_partial (firstOut head : List Nat) :
    checkIfGraphIsValid firstOut head = .ok () ↔ ∃ n, IsCSR n firstOut head := by
  by_cases hne : firstOut = []
  · subst hne
    constructor
    · intro h; cases h
    · rintro ⟨n, h⟩; have := h.length; simp at this
  · rcases checkIfGraphIsValid_spec (hd := head) hne with ⟨e, h⟩ | ⟨e, h⟩
    · exact ⟨fun _ => ⟨_, h⟩, fun _ => e⟩
    · rw [e]
      constructor
      · intro h; cases h
      · rintro ⟨n, hn⟩
        have : firstOut.length - 1 = n := by have := hn.length; omega
        exact absurd (this ▸ hn) h

/-- C66, graphs: everything else is reported with an exception, except that the check itself is undefined for an empty
`first_out` vector. -/
theorem C66_graph_undefined_iff (firstOut head : List Nat) : checkIfGraphIsValid firstOut head = .ub ↔ firstOut = [] := by
  by_cases hne : firstOut = []
  · subst hne; exact ⟨fun _ => rfl, fun _ => rfl⟩
  · rcases checkIfGraphIsValid_spec (hd := head) hne with ⟨e, h⟩ | ⟨e, h⟩ <;> rw [e] <;> simp [hne]

/-- C66, travel time profiles: exactly the profiles for `first_ipp_of_arc.size()-1` arcs are accepted.
Partial: other input is reported except for an empty offset vector, see `C66_profiles_undefined_iff`. -/
theorem C66_profiles_accepted_iff_partial (period : Nat) (first departure travel : List Nat) :
    checkIfArcIppAreValid period first departure travel = .ok () ↔ ∃ m, IsProfiles period m first departure travel := by
  by_cases hne : first = []
  · subst hne
    constructor
    · intro h; cases h
    · rintro ⟨n, h⟩; have := h.length; simp at this
  · rcases checkIfArcIppAreValid_spec (period := period) (dep := departure) (tr := travel) hne with ⟨e, h⟩ | ⟨e, h⟩
    · exact ⟨fun _ => ⟨_, h⟩, fun _ => e⟩
    · rw [e]
      constructor
      · intro h; cases h
      · rintro ⟨n, hn⟩
        have : first.length - 1 = n := by have := hn.length; omega
        exact absurd (this ▸ hn) h

/-- C66, travel time profiles: undefined only for an empty `first_ipp_of_arc`. -/
theorem C66_profiles_undefined_iff (period : Nat) (first departure travel : List Nat) :
    checkIfArcIppAreValid period first departure travel = .ub ↔ first = [] := by
  by_cases hne : first = []
  · subst hne; exact ⟨fun _ => rfl, fun _ => rfl⟩
  · rcases checkIfArcIppAreValid_spec (period := period) (dep := departure) (tr := travel) hne with ⟨e, h⟩ | ⟨e, h⟩ <;> rw [e] <;> simp [hne]

/-- C66, time-dependent graphs: accepted are exactly a graph together with a profile for each of its arcs.
Partial: other input is reported except for empty offset vectors, see `C66_td_graph_undefined_iff`. -/
theorem C66_td_graph_accepted_iff_partial (period : Nat) (firstOut head first departure travel : List Nat)
    (h1 : head.length < 2 ^ 64 - 1) (h2 : first.length < 2 ^ 64) :
    checkIfTdGraphIsValid period firstOut head first departure travel = .ok () ↔
      (∃ n, IsCSR n firstOut head) ∧ IsProfiles period head.length first departure travel := by
  by_cases hne : firstOut = []
  · subst hne
    constructor
    · intro h; cases h
    · rintro ⟨⟨n, h⟩, _⟩; have := h.length; simp at this
  · rcases checkIfTdGraphIsValid_spec (period := period) (dep := departure) (tr := travel) (hd := head) (fi := first) hne h1 h2 with
      ⟨e, h⟩ | ⟨e, h⟩
    · exact ⟨fun _ => ⟨⟨_, h.1⟩, h.2⟩, fun _ => e⟩
    · rw [e]
      constructor
      · intro h; cases h
      · rintro ⟨⟨n, hn⟩, h'⟩
        have : firstOut.length - 1 = n := by have := hn.length; omega
        exact absurd ⟨this ▸ hn, h'⟩ h

/-- C66, time-dependent graphs: undefined only for an empty `first_out`; an empty `first_ipp_of_arc` is reported. -/
theorem C66_td_graph_undefined_iff (period : Nat) (firstOut head first departure travel : List Nat)
    (h1 : head.length < 2 ^ 64 - 1) (h2 : first.length < 2 ^ 64) :
    checkIfTdGraphIsValid period firstOut head first departure travel = .ub ↔ firstOut = [] := by
  by_cases hne : firstOut = []
  · subst hne; exact ⟨fun _ => rfl, fun _ => rfl⟩
  · rcases checkIfTdGraphIsValid_spec (period := period) (dep := departure) (tr := travel) (hd := head) (fi := first) hne h1 h2 with
      ⟨e, h⟩ | ⟨e, h⟩ <;> rw [e] <;> simp [hne]

/-- C66, queries: exactly the well-formed queries are accepted, all others are reported. -/
theorem C66_queries (period n : Nat) (source sourceTime target rank : List Nat) :
    (checkIfSstQueriesAreValid period n source sourceTime target rank = .ok () ∧ IsTimedQueries period n source sourceTime target rank) ∨
    (checkIfSstQueriesAreValid period n source sourceTime target rank = .error ∧ ¬ IsTimedQueries period n source sourceTime target rank) :=
  checkIfSstQueriesAreValid_spec period n source sourceTime target rank

/-- Two points with the same departure time and different travel times pass the check, and so does a profile with overtaking. -/
theorem C66_ambiguous_profile_accepted :
    checkIfArcIppAreValid 100 [0, 3] [10, 10, 20] [5, 50, 1] = .ok () := by decide

example : checkIfGraphIsValid [0, 2, 2, 3] [1, 2, 0] = .ok () := by decide
example : checkIfGraphIsValid [0, 2, 1, 3] [1, 2, 0] = .error := by decide
example : checkIfGraphIsValid [0, 2, 2, 3] [1, 3, 0] = .error := by decide
example : checkIfTdGraphIsValid 100 [0, 1, 1] [1] [0, 2] [10, 20] [5, 6] = .ok () := by decide
example : checkIfTdGraphIsValid 100 [0, 1, 1] [1] [] [10, 20] [5, 6] = .error := by decide
example : checkIfArcIppAreValid 100 [0, 2, 2] [10, 20] [5, 6] = .error := by decide
example : checkIfArcIppAreValid 20 [0, 2] [10, 20] [5, 6] = .error := by decide
example : checkIfSstQueriesAreValid 100 3 [0, 2] [99, 0] [1, 1] [6, 7] = .ok () := by decide
example : checkIfSstQueriesAreValid 100 3 [0, 2] [99, 0] [1] [6, 7] = .error := by decide

end RK.Props
