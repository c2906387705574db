import Verif.Props.OsmProfile
/-! # C57: the directions of ways, exactly -/
namespace RK.Props
open RK RK.Osm

/-- Tags which say that bicycles may ride against the one-way direction: a cycleway in the opposite direction, or on both sides. -/
def Contraflow (t : Tags) : Prop :=
  (∃ v ∈ [b!"opposite", b!"opposite_track", b!"opposite_lane", b!"opposite_share_busway"], t b!"cycleway" = some v) ∨
  t b!"cycleway:both" ≠ none ∨ (t b!"cycleway:left" ≠ none ∧ t b!"cycleway:right" ≠ none)

theorem isOneOf_iff (t : Tags) (key : List Byte) (vals : List (List Byte)) : t.isOneOf key vals = true ↔ ∃ v ∈ vals, t key = some v := by
  simp [Tags.isOneOf, Tags.is]

/-- C57, the directions in which a way is open for cars, exactly. -/
theorem C57_car_direction_rule (t : Tags) :
    (carDirection t = .onlyForwards ↔ (∃ v ∈ [b!"yes", b!"true", b!"1"], t b!"oneway" = some v) ∨
      (t b!"oneway" = none ∧ (t b!"junction" = some b!"roundabout" ∨ t b!"highway" = some b!"motorway" ∨ t b!"highway" = some b!"motorway_link"))) ∧
    (carDirection t = .onlyBackwards ↔ ∃ v ∈ [b!"-1", b!"reverse", b!"backward"], t b!"oneway" = some v) ∧
    (carDirection t = .closed ↔ ∃ v ∈ [b!"reversible", b!"alternating"], t b!"oneway" = some v) := by
  cases h : t b!"oneway" with
  | none =>
    rw [C57_car_implied_oneway t h]
    split <;> simp_all
  | some s =>
    by_cases hs : s ∈ [b!"yes", b!"true", b!"1", b!"-1", b!"reverse", b!"backward", b!"no", b!"false", b!"0", b!"reversible", b!"alternating"]
    · obtain ⟨h1, h2, h3, h4⟩ := C57_car_oneway t s h
      simp only [List.mem_cons, List.not_mem_nil, or_false] at hs
      rcases hs with rfl | rfl | rfl | rfl | rfl | rfl | rfl | rfl | rfl | rfl | rfl
      · rw [h1 (by decide)]; simp
      · rw [h1 (by decide)]; simp
      · rw [h1 (by decide)]; simp
      · rw [h2 (by decide)]; simp
      · rw [h2 (by decide)]; simp
      · rw [h2 (by decide)]; simp
      · rw [h3 (by decide)]; simp
      · rw [h3 (by decide)]; simp
      · rw [h3 (by decide)]; simp
      · rw [h4 (by decide)]; simp
      · rw [h4 (by decide)]; simp
    · rw [C57_unknown_oneway_violated t s h hs]
      simp only [List.mem_cons, List.not_mem_nil, or_false, not_or] at hs
      simp [hs]

example : carDirection (tagList [(b!"junction", b!"roundabout")]) = .onlyForwards :=
  (C57_car_direction_rule _).1.2 (by decide)

/-- C57, the directions in which a way is open for bicycles, exactly: the tag `oneway:bicycle` decides if it is there, otherwise `oneway` together with the
tags that open a way against its direction. Values that are not known close the way. (A roundabout without the tag `oneway` is open in both directions.) -/
theorem C57_bicycle_direction_rule (t : Tags) :
    (bicycleDirection t = .onlyForwards ↔ (∃ v ∈ [b!"1", b!"yes", b!"true", b!"no_planned"], t b!"oneway:bicycle" = some v) ∨
      (t b!"oneway:bicycle" = none ∧ (∃ v ∈ [b!"yes", b!"true", b!"1"], t b!"oneway" = some v) ∧ ¬ Contraflow t)) ∧
    (bicycleDirection t = .onlyBackwards ↔ (∃ v ∈ [b!"-1", b!"opposite"], t b!"oneway:bicycle" = some v) ∨
      (t b!"oneway:bicycle" = none ∧ (∃ v ∈ [b!"-1", b!"reverse", b!"backward"], t b!"oneway" = some v) ∧ ¬ Contraflow t)) ∧
    (bicycleDirection t = .openInBoth ↔ (∃ v ∈ [b!"0", b!"no", b!"false", b!"tolerated", b!"permissive"], t b!"oneway:bicycle" = some v) ∨
      (t b!"oneway:bicycle" = none ∧ (t b!"oneway" = none ∨ (∃ v ∈ [b!"no", b!"false", b!"0"], t b!"oneway" = some v) ∨ Contraflow t))) := by
  unfold bicycleDirection
  simp only [isOneOf_iff]
  cases hb : t b!"oneway:bicycle" with
  | some s =>
    simp only [Option.isSome_some, if_true, Option.some.injEq, exists_eq_right', reduceCtorEq, false_and, or_false]
    by_cases hs : s ∈ [b!"-1", b!"opposite", b!"1", b!"yes", b!"true", b!"no_planned", b!"0", b!"no", b!"false", b!"tolerated", b!"permissive"]
    · simp only [List.mem_cons, List.not_mem_nil, or_false] at hs
      rcases hs with rfl | rfl | rfl | rfl | rfl | rfl | rfl | rfl | rfl | rfl | rfl <;> decide
    · simp only [List.mem_cons, List.not_mem_nil, or_false, not_or] at hs
      simp [hs]
  | none =>
    simp only [Option.isSome_none, Bool.false_eq_true, if_false, reduceCtorEq, and_false, exists_false, false_or, true_and]
    have hc : Contraflow t ↔ (∃ v ∈ [b!"opposite", b!"opposite_track", b!"opposite_lane", b!"opposite_share_busway"], t b!"cycleway" = some v) ∨
        (t b!"cycleway:both").isSome = true ∨ ((t b!"cycleway:left").isSome = true ∧ (t b!"cycleway:right").isSome = true) := by
      simp only [Contraflow, Option.isSome_iff_ne_none]
    rw [hc]
    cases ho : t b!"oneway" with
    | none => simp
    | some s =>
      simp only [Option.some.injEq, exists_eq_right', reduceCtorEq, if_false, false_or]
      by_cases hs : s ∈ [b!"no", b!"false", b!"0", b!"-1", b!"reverse", b!"backward", b!"yes", b!"true", b!"1"]
      · simp only [List.mem_cons, List.not_mem_nil, or_false] at hs
        by_cases h1 : ∃ v ∈ [b!"opposite", b!"opposite_track", b!"opposite_lane", b!"opposite_share_busway"], t b!"cycleway" = some v
        · simp only [h1, if_true, true_or, not_true, and_false, or_true, iff_true, ite_self, reduceCtorEq, and_self]
        · by_cases h2 : (t b!"cycleway:both").isSome = true
          · simp only [h1, h2, if_true, if_false, true_or, not_true, and_false, or_true, iff_true, ite_self, reduceCtorEq, and_self]
          · by_cases h3 : (t b!"cycleway:left").isSome = true ∧ (t b!"cycleway:right").isSome = true
            · simp only [h1, h2, h3, if_false, and_self, if_true, not_true, and_false, or_true, iff_true, ite_self, reduceCtorEq]
            · simp only [h1, h2, h3, if_false, false_or, not_false_eq_true, and_true, or_false]
              rcases hs with rfl | rfl | rfl | rfl | rfl | rfl | rfl | rfl | rfl <;> decide
      · simp only [List.mem_cons, List.not_mem_nil, or_false, not_or] at hs
        by_cases h1 : ∃ v ∈ [b!"opposite", b!"opposite_track", b!"opposite_lane", b!"opposite_share_busway"], t b!"cycleway" = some v
        · simp only [h1, if_true, true_or, not_true, and_false, or_true, iff_true, ite_self, reduceCtorEq, and_self]
        · by_cases h2 : (t b!"cycleway:both").isSome = true
          · simp only [h1, h2, if_true, if_false, true_or, not_true, and_false, or_true, iff_true, ite_self, reduceCtorEq, and_self]
          · by_cases h3 : (t b!"cycleway:left").isSome = true ∧ (t b!"cycleway:right").isSome = true
            · simp only [h1, h2, h3, if_false, and_self, if_true, not_true, and_false, or_true, iff_true, ite_self, reduceCtorEq]
            · simp only [h1, h2, h3, if_false, false_or, not_false_eq_true, and_true, or_false]
              simp [hs]

example : bicycleDirection (tagList [(b!"oneway", b!"yes"), (b!"cycleway:both", b!"lane")]) = .openInBoth ∧
    bicycleDirection (tagList [(b!"oneway", b!"yes"), (b!"cycleway:left", b!"lane")]) = .onlyForwards := by decide

/-- C57, roundabouts: without the tag `oneway` a roundabout is one-way for cars and open in both directions for bicycles. -/
theorem C57_roundabout_directions (t : Tags) (hj : t b!"junction" = some b!"roundabout") (ho : t b!"oneway" = none) (hb : t b!"oneway:bicycle" = none) :
    carDirection t = .onlyForwards ∧ bicycleDirection t = .openInBoth :=
  ⟨(C57_car_direction_rule t).1.2 (Or.inr ⟨ho, Or.inl hj⟩), (C57_bicycle_direction_rule t).2.2.2 (Or.inr ⟨hb, Or.inl ho⟩)⟩

example : bicycleDirection (tagList [(b!"junction", b!"roundabout")]) = .openInBoth :=
  (C57_roundabout_directions _ (by decide) (by decide) (by decide)).2

end RK.Props
