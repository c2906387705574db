import Verif.Proof.OsmProfile
import Verif.Proof.OsmRestriction
/-! # C46, C57, C58: speeds, travel times, access and turn restrictions of OpenStreetMap ways -/
namespace RK.Props
open RK RK.Osm RK.Spec

/-- A list of tags as a lookup function. -/
def tagList (l : List (List Byte × List Byte)) : Tags := fun k => (l.find? fun p => p.1 = k).map (·.2)

/-! ## C46 -/

/-- C46, first part: `get_osm_way_speed` returns for all tags, and never zero. -/
theorem C46_speed_positive (t : Tags) : ∃ v, waySpeed t = some v ∧ 0 < v ∧ v < infWeight := by
  obtain ⟨r, hr, hv⟩ := speedFrom_pos (t b!"maxspeed")
  unfold waySpeed
  rw [hr]
  cases r with
  | none =>
    refine ⟨_, rfl, (defaultSpeed_bounds t).1, ?_⟩
    have := (defaultSpeed_bounds t).2
    have : infWeight = 2147483647 := rfl
    omega
  | some v => exact ⟨v, rfl, (hv v rfl).1, (hv v rfl).2⟩

/-- C46, the value: if the tag `maxspeed` is a list of speed limits (of at most 1022 characters), then the speed is the
smallest of them, but at least 1. -/
theorem C46_speed_limits (t : Tags) (k : Nat) (s : List Byte) (l : List (List Byte)) (vs : List Nat)
    (ht : t b!"maxspeed" = some (List.replicate k 32#8 ++ s)) (hlen : k + s.length ≤ 1022) (hs : Separated s l)
    (hl : List.Forall₂ IsLimit l vs) :
    ∃ v, waySpeed t = some v ∧ 1 ≤ v ∧ ((v ∈ vs ∧ ∀ w ∈ vs, v ≤ w) ∨ (0 ∈ vs ∧ v = 1)) := by
  have hne : List.replicate k 32#8 ++ s ≠ b!"unposted" := by
    intro he
    have h1 := separated_head hs hl
    cases k with
    | succ k => simp [List.replicate_succ] at he
    | zero =>
      simp only [List.replicate_zero, List.nil_append] at he
      subst he
      have h59 : ∀ l, Separated b!"unposted" l → l = [b!"unposted"] := by
        intro l h
        generalize hx : (b!"unposted" : List Byte) = x at h ⊢
        cases h with
        | one => rfl
        | more v rest l k h =>
          have : (59#8 : Byte) ∈ (b!"unposted" : List Byte) := by rw [hx]; simp
          exact absurd this (by decide)
      rw [h59 l hs] at hl
      cases hl with
      | cons h2 _ =>
        obtain ⟨digits, unit, k, u, hd, hdig, _, _, he, _⟩ := h2
        cases digits with
        | nil => exact hd rfl
        | cons c cs =>
          have e1 : lowerCase b!"unposted" = b!"unposted" := by decide
          rw [e1] at he
          simp only [List.cons_append] at he
          injection he with he _
          have := (hdig c (by simp)).2
          rw [← he] at this
          revert this; decide
  have hcopy : copyLower (List.replicate k 32#8 ++ s) 1023 = List.replicate k 32#8 ++ lowerCase s := by
    unfold copyLower
    rw [List.take_of_length_le (by simp; omega), lowerCase_eq, lowerCase_append, lowerCase_replicate]
  have hsplit : splitValues (List.replicate k 32#8 ++ lowerCase s) = some (l.map lowerCase) := by
    unfold splitValues
    rw [skipSpaces_replicate _ _ (separated_head hs hl)]
    exact splitLoop_ok hs hl _ (by simp [lowerCase]; omega)
  have hmin : ∀ (vs : List Nat) (a : Nat), vs.foldl min a ≤ a ∧ (∀ w ∈ vs, vs.foldl min a ≤ w) ∧
      (vs.foldl min a = a ∨ vs.foldl min a ∈ vs) := by
    intro vs
    induction vs with
    | nil => intro a; simp
    | cons x xs ih =>
      intro a
      obtain ⟨h1, h2, h3⟩ := ih (min a x)
      simp only [List.foldl_cons, List.mem_cons]
      refine ⟨by omega, ?_, ?_⟩
      · rintro w (rfl | hw)
        · omega
        · exact h2 w hw
      · rcases h3 with h3 | h3
        · rw [h3]; omega
        · exact Or.inr (Or.inr h3)
  have hvs : vs.foldl min infWeight ∈ vs ∧ vs.foldl min infWeight < infWeight := by
    have hlt : ∃ w ∈ vs, w < infWeight := by
      cases hs with
      | one => cases hl with | cons h _ => exact ⟨_, by simp, (parse_limit h).2.1⟩
      | more => cases hl with | cons h _ => exact ⟨_, by simp, (parse_limit h).2.1⟩
    obtain ⟨w, hw, hlt⟩ := hlt
    obtain ⟨h1, h2, h3⟩ := hmin vs infWeight
    have := h2 w hw
    refine ⟨?_, by omega⟩
    rcases h3 with h3 | h3
    · omega
    · exact h3
  unfold waySpeed speedFromMaxspeed
  rw [ht]
  simp only [if_neg hne, hcopy, hsplit, Option.bind_eq_bind, Option.bind_some, foldl_min hl]
  generalize hw : vs.foldl min infWeight = w at hvs
  by_cases h0 : w = 0
  · rw [if_pos h0, if_pos (by decide)]
    exact ⟨1, rfl, le_rfl, Or.inr ⟨by rw [← h0]; exact hvs.1, rfl⟩⟩
  · rw [if_neg h0, if_pos (by omega)]
    refine ⟨w, rfl, by omega, Or.inl ⟨hvs.1, ?_⟩⟩
    rw [← hw]
    exact (hmin vs infWeight).2.1

/-- Example: ` 50 MPH;  30knots;100` is a list of limits. -/
example : ∃ v, waySpeed (tagList [(b!"maxspeed", b!" 50 MPH;  30knots;100")]) = some v ∧ v = 55 := by
  obtain ⟨v, h1, h2, h3⟩ := C46_speed_limits (tagList [(b!"maxspeed", b!" 50 MPH;  30knots;100")]) 1
    b!"50 MPH;  30knots;100" [b!"50 MPH", b!"30knots", b!"100"] [80, 55, 100] rfl (by decide)
    (Separated.more b!"50 MPH" b!"30knots;100" _ 2 (Separated.more b!"30knots" b!"100" _ 0 (Separated.one _)))
    (by
      refine .cons ?_ (.cons ?_ (.cons ?_ .nil))
      · exact ⟨b!"50", b!"mph", 1, .mph, by decide, by decide, by decide, by decide, by decide, by decide⟩
      · exact ⟨b!"30", b!"knots", 0, .knots, by decide, by decide, by decide, by decide, by decide, by decide⟩
      · exact ⟨b!"100", [], 0, .kmh, by decide, by decide, by decide, by decide, by decide, by decide⟩)
  refine ⟨v, h1, ?_⟩
  rcases h3 with ⟨h3, h4⟩ | ⟨h3, _⟩
  · have := h4 55 (by decide)
    simp only [List.mem_cons, List.mem_nil_iff, or_false] at h3
    omega
  · exact absurd h3 (by decide)

/-- C46, travel times: with positive speeds all travel times are computed, and the travel time of an arc of at most 238609
metres is the exact time in milliseconds, rounded down. (`dist` metres at `v` km/h need `dist * 3600 / v` milliseconds.) -/
theorem C46_travel_times (dist way speed : List Nat) (hw : way.length = dist.length)
    (hway : ∀ w ∈ way, w < speed.length) (hpos : ∀ w ∈ way, ∀ v, rd speed w = some v → 0 < v) :
    ∃ tt, travelTimes dist way speed = some tt ∧ tt.length = dist.length ∧
      ∀ a d w v, rd dist a = some d → rd way a = some w → rd speed w = some v → d ≤ 238609 →
        rd tt a = some (d * 3600 / v) := by
  have time : ∀ d v, 0 < v → ∃ x, travelTime d v = some x ∧ (d ≤ 238609 → x = d * 3600 / v) := by
    intro d v hv
    refine ⟨_, by rw [travelTime, if_neg (by omega)], ?_⟩
    intro hd
    have : mul32 d 18000 = d * 18000 := by
      have : u32 = 4294967296 := rfl
      unfold mul32; rw [this, Nat.mod_eq_of_lt (by omega)]
    rw [this, Nat.div_div_eq_div_mul, show d * 18000 = (d * 3600) * 5 by omega]
    exact Nat.mul_div_mul_right _ _ (by omega)
  have main := forRange_inv (f := fun tt a => do
      let d ← rd tt a
      let w ← rd way a
      let s ← rd speed w
      let x ← travelTime d s
      wr tt a x) (fun i tt => tt.length = dist.length ∧ ∀ a, a < dist.length →
        if a < i then ∀ d w v, rd dist a = some d → rd way a = some w → rd speed w = some v → d ≤ 238609 →
          rd tt a = some (d * 3600 / v)
        else rd tt a = rd dist a) (Nat.zero_le dist.length) (s := dist) ⟨rfl, fun a _ => by simp⟩ ?_
  · obtain ⟨tt, h1, h2, h3⟩ := main
    refine ⟨tt, h1, h2, ?_⟩
    intro a d w v hd
    have ha : a < dist.length := rd_some_lt hd
    have := h3 a ha
    rw [if_pos ha] at this
    exact this d w v hd
  · intro i tt _ hi ⟨hlen, hinv⟩
    obtain ⟨d, hd⟩ := rd_isSome (v := dist) hi
    obtain ⟨w, hwi⟩ := rd_isSome (v := way) (i := i) (by omega)
    have hwm : w ∈ way := List.mem_of_getElem? (by simpa [rd] using hwi)
    obtain ⟨v, hv⟩ := rd_isSome (v := speed) (hway w hwm)
    obtain ⟨x, hx, hx'⟩ := time d v (hpos w hwm v hv)
    have hti : rd tt i = some d := by
      have := hinv i hi
      rw [if_neg (by omega)] at this
      rw [this, hd]
    have hi' : i < tt.length := by omega
    refine ⟨tt.set i x, by simp only [hti, hwi, hv, hx, Option.bind_eq_bind, Option.bind_some, wr_lt hi'], by simp [hlen], ?_⟩
    intro a ha
    have := hinv a ha
    by_cases hai : a = i
    · subst hai
      rw [if_pos (by omega)]
      intro d' w' v' h1 h2 h3 h4
      rw [hd] at h1; cases h1
      rw [hwi] at h2; cases h2
      rw [hv] at h3; cases h3
      rw [rd_set hi', if_pos rfl, hx' h4]
    · have e : rd (tt.set i x) a = rd tt a := by rw [rd_set hi', if_neg (by omega)]
      by_cases hlt : a < i
      · rw [if_pos (by omega)]
        rw [if_pos hlt] at this
        rw [e]; exact this
      · rw [if_neg (by omega)]
        rw [if_neg hlt] at this
        rw [e]; exact this

example : travelTimes [1000, 250] [0, 1] [36, 90] = some [100000, 10000] := by decide

/-- C46 for longer arcs is violated: 238610 metres (a ferry at 5 km/h: two days) get a travel time of 508 milliseconds. -/
theorem C46_long_arc_violated :
    travelTime 238610 5 = some 508 ∧ 238610 * 3600 / 5 = 171799200 := by decide

/-- Numbers of the tag `maxspeed` are read modulo 2^32: 4294967346 gives a speed of 50 km/h. -/
theorem C46_large_number_wraps :
    waySpeed (tagList [(b!"maxspeed", b!"4294967346")]) = some 50 := by decide

/-- A space behind the unit (before a further value) makes the unit unknown, and km/h are taken: `50 mph ;70 mph` gives 50
km/h, not 80 km/h. -/
theorem C46_space_behind_unit_violated :
    waySpeed (tagList [(b!"maxspeed", b!"50 mph ;70 mph")]) = some 50 ∧
    waySpeed (tagList [(b!"maxspeed", b!"50 mph;70 mph")]) = some 80 := by decide

/-- Only 1022 characters of the tag are read, and a number may be cut: 1020 spaces and `130` give 13 km/h. -/
theorem C46_long_value_cut_violated :
    waySpeed (tagList [(b!"maxspeed", List.replicate 1020 32#8 ++ b!"130")]) = some 13 := by decide +kernel

/-! ## C57 -/

/-- C57 for cars, the part the code does right: a way that is neither a junction nor a ferry is not used by cars if a tag
forbids it. Missing for the full claim: junctions, see below. -/
theorem C57_car_access_partial (t : Tags) (hj : t b!"junction" = none) (hr : t b!"route" ≠ some b!"ferry")
    (hf : t b!"ferry" ≠ some b!"yes")
    (h : t b!"motorcar" = some b!"no" ∨ t b!"motor_vehicle" = some b!"no" ∨
      ∃ a, t b!"access" = some a ∧ a ∉ [b!"yes", b!"permissive", b!"delivery", b!"designated", b!"destination"]) :
    usedByCars t = false := by
  unfold usedByCars
  rw [if_neg (by simp [hj]), if_neg (by simp [Tags.is, hr]), if_neg (by simp [Tags.is, hf])]
  split
  · rfl
  · split
    · rfl
    · rename_i h1
      split
      · rfl
      · rename_i h2
        rcases h with h | h | ⟨a, h3, h4⟩
        · simp [Tags.is, h] at h1
        · simp [Tags.is, h] at h2
        · rw [if_pos]
          rw [h3]
          refine ⟨rfl, ?_⟩
          simp only [List.mem_cons, List.mem_nil_iff, or_false, not_or] at h4
          simp [Tags.isOneOf, Tags.is, h3, h4]

example : usedByCars (tagList [(b!"highway", b!"residential"), (b!"access", b!"private")]) = false :=
  C57_car_access_partial _ (by decide) (by decide) (by decide) (Or.inr (Or.inr ⟨b!"private", by decide, by decide⟩))

/-- C57 is violated for junctions: the tag `junction` is tested first, and the tags that forbid cars are ignored, also
those that forbid bicycles and pedestrians. -/
theorem C57_junction_access_ignored_violated :
    usedByCars (tagList [(b!"highway", b!"footway"), (b!"junction", b!"yes"), (b!"motor_vehicle", b!"no"),
      (b!"access", b!"no")]) = true ∧
    usedByBicycles (tagList [(b!"highway", b!"motorway"), (b!"junction", b!"roundabout"), (b!"bicycle", b!"no")]) = true ∧
    usedByPedestrians (tagList [(b!"highway", b!"motorway"), (b!"junction", b!"roundabout"), (b!"access", b!"no")]) =
      true := by decide

/-- C57 for bicycles, outside junctions and ferries. -/
theorem C57_bicycle_access_partial (t : Tags) (hj : t b!"junction" = none) (hr : t b!"route" ≠ some b!"ferry")
    (hf : t b!"ferry" ≠ some b!"ferry")
    (h : t b!"bicycle" = some b!"no" ∨ t b!"highway" = none ∨
      ∃ a, t b!"access" = some a ∧ a ∉ [b!"yes", b!"permissive", b!"delivery", b!"designated", b!"destination",
        b!"agricultural", b!"forestry", b!"public"]) :
    usedByBicycles t = false := by
  unfold usedByBicycles
  rw [if_neg (by simp [hj]), if_neg (by simp [Tags.is, hr]), if_neg (by simp [Tags.is, hf])]
  split
  · rfl
  · rename_i h0
    split
    · rfl
    · split
      · rfl
      · rename_i h1
        rcases h with h | h | ⟨a, h3, h4⟩
        · rw [if_pos (by simp [Tags.isOneOf, Tags.is, h])]
        · exact absurd h h0
        · refine absurd ?_ h1
          rw [h3]
          refine ⟨rfl, ?_⟩
          simp only [List.mem_cons, List.mem_nil_iff, or_false, not_or] at h4
          simp [Tags.isOneOf, Tags.is, h3, h4]

example : usedByBicycles (tagList [(b!"highway", b!"cycleway"), (b!"bicycle", b!"no")]) = false :=
  C57_bicycle_access_partial _ (by decide) (by decide) (by decide) (Or.inl (by decide))

theorem oneOf_iff {t : Tags} {k : List Byte} {l : List (List Byte)} : t.isOneOf k l = true ↔ ∃ v ∈ l, t k = some v := by
  simp [Tags.isOneOf, Tags.is]

theorem access_iff {t : Tags} {k : List Byte} {l : List (List Byte)} :
    (¬ ((t k).isSome = true ∧ (!t.isOneOf k l) = true)) ↔ ∀ a, t k = some a → a ∈ l := by
  cases e : t k with
  | none => simp
  | some a => simp [Tags.isOneOf, Tags.is, e]

/-- C57, who may walk: exactly the ways that are junctions, ferries or stops of public transport, and the ways for pedestrians and small roads to which
access is not restricted and which may be crossed. -/
theorem C57_pedestrian_rule (t : Tags) : usedByPedestrians t = true ↔
    (t b!"junction" ≠ none ∨ t b!"route" = some b!"ferry" ∨ t b!"ferry" = some b!"ferry" ∨
      (∃ v ∈ [b!"stop_position", b!"platform", b!"stop_area", b!"station"], t b!"public_transport" = some v) ∨
      (∃ v ∈ [b!"halt", b!"platform", b!"subway_entrance", b!"station", b!"tram_stop"], t b!"railway" = some v)) ∨
    ((∀ a, t b!"access" = some a → a ∈ [b!"yes", b!"permissive", b!"delivery", b!"designated", b!"destination", b!"agricultural", b!"forestry", b!"public"]) ∧
      t b!"crossing" ≠ some b!"no" ∧
      ∃ v ∈ [b!"secondary", b!"tertiary", b!"unclassified", b!"residential", b!"service", b!"secondary_link", b!"tertiary_link", b!"living_street", b!"track",
        b!"bicycle_road", b!"path", b!"footway", b!"cycleway", b!"bridleway", b!"pedestrian", b!"escape", b!"steps", b!"crossing", b!"escalator", b!"elevator",
        b!"platform", b!"ferry"], t b!"highway" = some v) := by
  unfold usedByPedestrians
  by_cases h1 : t b!"junction" = none
  swap
  · rw [if_pos (Option.isSome_iff_ne_none.2 h1)]
    exact ⟨fun _ => Or.inl (Or.inl h1), fun _ => rfl⟩
  rw [if_neg (by rw [h1]; decide)]
  by_cases h2 : t b!"route" = some b!"ferry"
  · rw [if_pos (by simp [Tags.is, h2])]
    exact ⟨fun _ => Or.inl (Or.inr (Or.inl h2)), fun _ => rfl⟩
  rw [if_neg (by simp [Tags.is, h2])]
  by_cases h3 : t b!"ferry" = some b!"ferry"
  · rw [if_pos (by simp [Tags.is, h3])]
    exact ⟨fun _ => Or.inl (Or.inr (Or.inr (Or.inl h3))), fun _ => rfl⟩
  rw [if_neg (by simp [Tags.is, h3])]
  by_cases h4 : ∃ v ∈ [b!"stop_position", b!"platform", b!"stop_area", b!"station"], t b!"public_transport" = some v
  · rw [if_pos (oneOf_iff.2 h4)]
    exact ⟨fun _ => Or.inl (Or.inr (Or.inr (Or.inr (Or.inl h4)))), fun _ => rfl⟩
  rw [if_neg (mt oneOf_iff.1 h4)]
  by_cases h5 : ∃ v ∈ [b!"halt", b!"platform", b!"subway_entrance", b!"station", b!"tram_stop"], t b!"railway" = some v
  · rw [if_pos (oneOf_iff.2 h5)]
    exact ⟨fun _ => Or.inl (Or.inr (Or.inr (Or.inr (Or.inr h5)))), fun _ => rfl⟩
  rw [if_neg (mt oneOf_iff.1 h5)]
  have hno : ¬ (t b!"junction" ≠ none ∨ t b!"route" = some b!"ferry" ∨ t b!"ferry" = some b!"ferry" ∨
      (∃ v ∈ [b!"stop_position", b!"platform", b!"stop_area", b!"station"], t b!"public_transport" = some v) ∨
      (∃ v ∈ [b!"halt", b!"platform", b!"subway_entrance", b!"station", b!"tram_stop"], t b!"railway" = some v)) := by
    rintro (h | h | h | h | h)
    · exact h h1
    · exact h2 h
    · exact h3 h
    · exact h4 h
    · exact h5 h
  rw [or_iff_right hno]
  by_cases h6 : t b!"highway" = none
  · rw [if_pos h6]
    refine ⟨fun h => (by cases h), ?_⟩
    rintro ⟨_, _, v, _, hv⟩
    rw [h6] at hv
    cases hv
  rw [if_neg h6, ← access_iff]
  by_cases h7 : (t b!"access").isSome ∧ !t.isOneOf b!"access" [b!"yes", b!"permissive", b!"delivery", b!"designated", b!"destination", b!"agricultural", b!"forestry", b!"public"]
  · rw [if_pos h7]
    exact ⟨fun h => (by cases h), fun h => absurd h7 h.1⟩
  rw [if_neg h7]
  by_cases h8 : t b!"crossing" = some b!"no"
  · rw [if_pos (by simp [Tags.is, h8])]
    exact ⟨fun h => (by cases h), fun h => absurd h8 h.2.1⟩
  rw [if_neg (by simp [Tags.is, h8]), oneOf_iff]
  refine ⟨fun ⟨v, hv, e⟩ => ⟨h7, h8, v, ?_, e⟩, fun ⟨_, _, v, hv, e⟩ => ⟨v, ?_, e⟩⟩
  · clear e; revert v; decide
  · clear e; revert v; decide

example : usedByPedestrians (tagList [(b!"highway", b!"footway"), (b!"access", b!"private")]) = false ∧
    usedByPedestrians (tagList [(b!"highway", b!"footway"), (b!"access", b!"forestry")]) = true := by decide

/-- C57, who may drive: exactly the junctions and ferries, and the roads to which cars and the public have access: roads of the classes for cars, bicycle roads
that are open for cars, and ways of unknown classes with a speed limit, unless their direction changes with time. -/
theorem C57_car_rule (t : Tags) : usedByCars t = true ↔
    (t b!"junction" ≠ none ∨ t b!"route" = some b!"ferry" ∨ t b!"ferry" = some b!"yes") ∨
    (t b!"motorcar" ≠ some b!"no" ∧ t b!"motor_vehicle" ≠ some b!"no" ∧
      (∀ a, t b!"access" = some a → a ∈ [b!"yes", b!"permissive", b!"delivery", b!"designated", b!"destination"]) ∧
      ∃ v, t b!"highway" = some v ∧
        (v ∈ [b!"motorway", b!"trunk", b!"primary", b!"secondary", b!"tertiary", b!"unclassified", b!"residential", b!"service", b!"motorway_link", b!"trunk_link", b!"primary_link", b!"secondary_link", b!"tertiary_link", b!"motorway_junction", b!"living_street", b!"track", b!"ferry"] ∨
        (v = b!"bicycle_road" ∧ t b!"motorcar" = some b!"yes") ∨
        (v ∉ [b!"motorway", b!"trunk", b!"primary", b!"secondary", b!"tertiary", b!"unclassified", b!"residential", b!"service", b!"motorway_link", b!"trunk_link", b!"primary_link", b!"secondary_link", b!"tertiary_link", b!"motorway_junction", b!"living_street", b!"track", b!"ferry"] ∧
          v ≠ b!"bicycle_road" ∧
          v ∉ [b!"construction", b!"path", b!"footway", b!"cycleway", b!"bridleway", b!"pedestrian", b!"bus_guideway", b!"raceway", b!"escape", b!"steps", b!"proposed", b!"conveying"] ∧
          t b!"oneway" ≠ some b!"reversible" ∧ t b!"oneway" ≠ some b!"alternating" ∧ t b!"maxspeed" ≠ none))) := by
  unfold usedByCars
  by_cases h1 : t b!"junction" = none
  swap
  · rw [if_pos (Option.isSome_iff_ne_none.2 h1)]
    exact ⟨fun _ => Or.inl (Or.inl h1), fun _ => rfl⟩
  rw [if_neg (by rw [h1]; decide)]
  by_cases h2 : t b!"route" = some b!"ferry"
  · rw [if_pos (by simp [Tags.is, h2])]
    exact ⟨fun _ => Or.inl (Or.inr (Or.inl h2)), fun _ => rfl⟩
  rw [if_neg (by simp [Tags.is, h2])]
  by_cases h3 : t b!"ferry" = some b!"yes"
  · rw [if_pos (by simp [Tags.is, h3])]
    exact ⟨fun _ => Or.inl (Or.inr (Or.inr h3)), fun _ => rfl⟩
  rw [if_neg (by simp [Tags.is, h3])]
  have hno : ¬ (t b!"junction" ≠ none ∨ t b!"route" = some b!"ferry" ∨ t b!"ferry" = some b!"yes") := by
    rintro (h | h | h)
    · exact h h1
    · exact h2 h
    · exact h3 h
  rw [or_iff_right hno]
  cases h6 : t b!"highway" with
  | none => simp
  | some v =>
  rw [if_neg (by simp)]
  by_cases h7 : t b!"motorcar" = some b!"no"
  · rw [if_pos (by simp [Tags.is, h7])]
    exact ⟨fun h => (by cases h), fun h => absurd h7 h.1⟩
  rw [if_neg (by simp [Tags.is, h7])]
  by_cases h8 : t b!"motor_vehicle" = some b!"no"
  · rw [if_pos (by simp [Tags.is, h8])]
    exact ⟨fun h => (by cases h), fun h => absurd h8 h.2.1⟩
  rw [if_neg (by simp [Tags.is, h8]), ← access_iff]
  by_cases h9 : (t b!"access").isSome ∧ !t.isOneOf b!"access" [b!"yes", b!"permissive", b!"delivery", b!"designated", b!"destination"]
  · rw [if_pos h9]
    exact ⟨fun h => (by cases h), fun h => absurd h9 h.2.2.1⟩
  rw [if_neg h9]
  have same : v ∈ [b!"motorway", b!"trunk", b!"primary", b!"secondary", b!"tertiary", b!"unclassified", b!"residential", b!"service", b!"motorway_link", b!"trunk_link", b!"primary_link", b!"secondary_link", b!"tertiary_link", b!"motorway_junction", b!"living_street", b!"residential", b!"track", b!"ferry"] ↔
      v ∈ [b!"motorway", b!"trunk", b!"primary", b!"secondary", b!"tertiary", b!"unclassified", b!"residential", b!"service", b!"motorway_link", b!"trunk_link", b!"primary_link", b!"secondary_link", b!"tertiary_link", b!"motorway_junction", b!"living_street", b!"track", b!"ferry"] := by
    constructor
    · clear h6; revert v; decide
    · clear h6; revert v; decide
  have one : ∀ l : List (List Byte), (∃ w ∈ l, t b!"highway" = some w) ↔ v ∈ l := by
    intro l
    rw [h6]
    simp
  by_cases ha : v ∈ [b!"motorway", b!"trunk", b!"primary", b!"secondary", b!"tertiary", b!"unclassified", b!"residential", b!"service", b!"motorway_link", b!"trunk_link", b!"primary_link", b!"secondary_link", b!"tertiary_link", b!"motorway_junction", b!"living_street", b!"track", b!"ferry"]
  · rw [if_pos (oneOf_iff.2 ((one _).2 (same.2 ha)))]
    exact ⟨fun _ => ⟨h7, h8, h9, v, rfl, Or.inl ha⟩, fun _ => rfl⟩
  rw [if_neg (mt oneOf_iff.1 (mt (one _).1 (mt same.1 ha)))]
  by_cases hb : v = b!"bicycle_road"
  · subst hb
    rw [if_pos (by simp [Tags.is, h6])]
    constructor
    · intro h
      exact ⟨h7, h8, h9, _, rfl, Or.inr (Or.inl ⟨rfl, by simpa [Tags.is] using h⟩)⟩
    · rintro ⟨_, _, _, w, hw, h | h | h⟩
      · cases hw; exact absurd h ha
      · simpa [Tags.is] using h.2
      · cases hw; exact absurd rfl h.2.1
  rw [if_neg (by simp [Tags.is, h6, hb])]
  by_cases hc : v ∈ [b!"construction", b!"path", b!"footway", b!"cycleway", b!"bridleway", b!"pedestrian", b!"bus_guideway", b!"raceway", b!"escape", b!"steps", b!"proposed", b!"conveying"]
  · rw [if_pos (oneOf_iff.2 ((one _).2 hc))]
    refine ⟨fun h => (by cases h), ?_⟩
    rintro ⟨_, _, _, w, hw, h | h | h⟩
    · cases hw; exact absurd h ha
    · cases hw; exact absurd h.1 hb
    · cases hw; exact absurd hc h.2.2.1
  rw [if_neg (mt oneOf_iff.1 (mt (one _).1 hc))]
  by_cases hd : t b!"oneway" = some b!"reversible" ∨ t b!"oneway" = some b!"alternating"
  · rw [if_pos (by rcases hd with hd | hd <;> simp [Tags.isOneOf, Tags.is, hd])]
    refine ⟨fun h => (by cases h), ?_⟩
    rintro ⟨_, _, _, w, hw, h | h | h⟩
    · cases hw; exact absurd h ha
    · cases hw; exact absurd h.1 hb
    · rcases hd with hd | hd
      · exact absurd hd h.2.2.2.1
      · exact absurd hd h.2.2.2.2.1
  rw [not_or] at hd
  rw [if_neg (by simp [Tags.isOneOf, Tags.is, hd]), Option.isSome_iff_ne_none]
  constructor
  · intro h
    exact ⟨h7, h8, h9, v, rfl, Or.inr (Or.inr ⟨ha, hb, hc, hd.1, hd.2, h⟩)⟩
  · rintro ⟨_, _, _, w, hw, h | h | h⟩
    · cases hw; exact absurd h ha
    · cases hw; exact absurd h.1 hb
    · exact h.2.2.2.2.2

example : usedByCars (tagList [(b!"highway", b!"bicycle_road"), (b!"motorcar", b!"yes")]) = true ∧
    usedByCars (tagList [(b!"highway", b!"bus_stop"), (b!"maxspeed", b!"30"), (b!"oneway", b!"alternating")]) = false := by decide

/-- C57, who may ride a bicycle: exactly the junctions and ferries, and the ways that are not only planned, to which access is not restricted, which are not closed
for bicycles, and which have a cycleway or belong to the classes for bicycles. -/
theorem C57_bicycle_rule (t : Tags) : usedByBicycles t = true ↔
    (t b!"junction" ≠ none ∨ t b!"route" = some b!"ferry" ∨ t b!"ferry" = some b!"ferry") ∨
    (t b!"bicycle" ≠ some b!"no" ∧ t b!"bicycle" ≠ some b!"use_sidepath" ∧
      (∀ a, t b!"access" = some a → a ∈ [b!"yes", b!"permissive", b!"delivery", b!"designated", b!"destination", b!"agricultural", b!"forestry", b!"public"]) ∧
      ∃ v, t b!"highway" = some v ∧ v ≠ b!"proposed" ∧
        ((∃ k ∈ [b!"cycleway", b!"cycleway:left", b!"cycleway:right", b!"cycleway:both"], t k ≠ none) ∨
        v ∈ [b!"secondary", b!"tertiary", b!"unclassified", b!"residential", b!"service", b!"secondary_link", b!"tertiary_link", b!"living_street", b!"track", b!"bicycle_road", b!"primary", b!"primary_link", b!"path", b!"footway", b!"cycleway", b!"bridleway", b!"pedestrian", b!"crossing", b!"escape", b!"steps", b!"ferry"])) := by
  unfold usedByBicycles
  by_cases h1 : t b!"junction" = none
  swap
  · rw [if_pos (Option.isSome_iff_ne_none.2 h1)]
    exact ⟨fun _ => Or.inl (Or.inl h1), fun _ => rfl⟩
  rw [if_neg (by rw [h1]; decide)]
  by_cases h2 : t b!"route" = some b!"ferry"
  · rw [if_pos (by simp [Tags.is, h2])]
    exact ⟨fun _ => Or.inl (Or.inr (Or.inl h2)), fun _ => rfl⟩
  rw [if_neg (by simp [Tags.is, h2])]
  by_cases h3 : t b!"ferry" = some b!"ferry"
  · rw [if_pos (by simp [Tags.is, h3])]
    exact ⟨fun _ => Or.inl (Or.inr (Or.inr h3)), fun _ => rfl⟩
  rw [if_neg (by simp [Tags.is, h3])]
  have hno : ¬ (t b!"junction" ≠ none ∨ t b!"route" = some b!"ferry" ∨ t b!"ferry" = some b!"ferry") := by
    rintro (h | h | h)
    · exact h h1
    · exact h2 h
    · exact h3 h
  rw [or_iff_right hno]
  cases h6 : t b!"highway" with
  | none => simp
  | some v =>
  rw [if_neg (by simp)]
  by_cases h7 : v = b!"proposed"
  · subst h7
    rw [if_pos (by simp [Tags.is, h6])]
    refine ⟨fun h => (by cases h), ?_⟩
    rintro ⟨_, _, _, w, hw, h, _⟩
    cases hw
    exact absurd rfl h
  rw [if_neg (by simp [Tags.is, h6, h7]), ← access_iff]
  by_cases h9 : (t b!"access").isSome ∧ !t.isOneOf b!"access" [b!"yes", b!"permissive", b!"delivery", b!"designated", b!"destination", b!"agricultural", b!"forestry", b!"public"]
  · rw [if_pos h9]
    exact ⟨fun h => (by cases h), fun h => absurd h9 h.2.2.1⟩
  rw [if_neg h9]
  by_cases hd : t b!"bicycle" = some b!"no" ∨ t b!"bicycle" = some b!"use_sidepath"
  · rw [if_pos (by rcases hd with hd | hd <;> simp [Tags.isOneOf, Tags.is, hd])]
    refine ⟨fun h => (by cases h), fun h => ?_⟩
    rcases hd with hd | hd
    · exact absurd hd h.1
    · exact absurd hd h.2.1
  rw [not_or] at hd
  rw [if_neg (by simp [Tags.isOneOf, Tags.is, hd])]
  have one : ∀ l : List (List Byte), (∃ w ∈ l, t b!"highway" = some w) ↔ v ∈ l := by
    intro l
    rw [h6]
    simp
  by_cases hk : ∃ k ∈ [b!"cycleway", b!"cycleway:left", b!"cycleway:right", b!"cycleway:both"], t k ≠ none
  · have hk' : t b!"cycleway" ≠ none ∨ t b!"cycleway:left" ≠ none ∨ t b!"cycleway:right" ≠ none ∨ t b!"cycleway:both" ≠ none := by
      simpa only [List.mem_cons, List.not_mem_nil, or_false, exists_eq_or_imp, exists_eq_left] using hk
    constructor
    · intro _
      exact ⟨hd.1, hd.2, h9, v, rfl, h7, Or.inl hk⟩
    · intro _
      simp only [← Option.isSome_iff_ne_none] at hk'
      split
      · rfl
      · split
        · rfl
        · split
          · rfl
          · split
            · rfl
            · rename_i a b c d
              rcases hk' with h | h | h | h
              · exact absurd h a
              · exact absurd h b
              · exact absurd h c
              · exact absurd h d
  have hk' : t b!"cycleway" = none ∧ t b!"cycleway:left" = none ∧ t b!"cycleway:right" = none ∧ t b!"cycleway:both" = none := by
    simpa only [List.mem_cons, List.not_mem_nil, or_false, exists_eq_or_imp, exists_eq_left, not_or, not_not] using hk
  rw [if_neg (by rw [hk'.1]; decide), if_neg (by rw [hk'.2.1]; decide), if_neg (by rw [hk'.2.2.1]; decide), if_neg (by rw [hk'.2.2.2]; decide), oneOf_iff, one]
  constructor
  · intro h
    refine ⟨hd.1, hd.2, h9, v, rfl, h7, Or.inr ?_⟩
    clear one h6 h7
    revert v; decide
  · rintro ⟨_, _, _, w, hw, hp, h | h⟩
    · exact absurd h hk
    · cases hw
      clear one h6 h7 hp
      revert v; decide

example : usedByBicycles (tagList [(b!"highway", b!"motorway"), (b!"cycleway:left", b!"lane")]) = true ∧
    usedByBicycles (tagList [(b!"highway", b!"motorway")]) = false := by decide

/-- C57, directions for cars: a way with a `oneway` tag is open in the direction it names, and closed while reversible. -/
theorem C57_car_oneway (t : Tags) (s : List Byte) (h : t b!"oneway" = some s) :
    (s ∈ [b!"yes", b!"true", b!"1"] → carDirection t = .onlyForwards) ∧
    (s ∈ [b!"-1", b!"reverse", b!"backward"] → carDirection t = .onlyBackwards) ∧
    (s ∈ [b!"no", b!"false", b!"0"] → carDirection t = .openInBoth) ∧
    (s ∈ [b!"reversible", b!"alternating"] → carDirection t = .closed) := by
  unfold carDirection
  simp only [h, Option.isSome_some, if_true, Tags.isOneOf, Tags.is, List.mem_cons, List.mem_nil_iff, or_false]
  refine ⟨?_, ?_, ?_, ?_⟩
  · rintro (rfl | rfl | rfl) <;> decide
  · rintro (rfl | rfl | rfl) <;> decide
  · rintro (rfl | rfl | rfl) <;> decide
  · rintro (rfl | rfl) <;> decide

/-- C57, without the tag roundabouts and motorways are one-way, other ways are open in both directions. -/
theorem C57_car_implied_oneway (t : Tags) (h : t b!"oneway" = none) :
    carDirection t = if t b!"junction" = some b!"roundabout" ∨ t b!"highway" = some b!"motorway" ∨
      t b!"highway" = some b!"motorway_link" then .onlyForwards else .openInBoth := by
  unfold carDirection
  rw [if_neg (by simp [h])]
  by_cases h1 : t b!"junction" = some b!"roundabout"
  · rw [if_pos (by simp [Tags.is, h1]), if_pos (Or.inl h1)]
  · rw [if_neg (by simp [Tags.is, h1])]
    by_cases h2 : t b!"highway" = some b!"motorway" ∨ t b!"highway" = some b!"motorway_link"
    · rw [if_pos (Or.inr h2), if_pos]
      rcases h2 with h2 | h2 <;> simp [Tags.isOneOf, Tags.is, h2]
    · rw [not_or] at h2
      rw [if_neg (by simp [Tags.isOneOf, Tags.is, h2.1, h2.2]), if_neg (by
        rintro (h | h | h)
        · exact h1 h
        · exact h2.1 h
        · exact h2.2 h)]

/-- C57 is violated for unknown values of `oneway`: the log message says that the way is closed, but it is open for cars in
both directions (for bicycles it is closed). -/
theorem C57_unknown_oneway_violated (t : Tags) (s : List Byte) (h : t b!"oneway" = some s)
    (hs : s ∉ [b!"yes", b!"true", b!"1", b!"-1", b!"reverse", b!"backward", b!"no", b!"false", b!"0", b!"reversible",
      b!"alternating"]) : carDirection t = .openInBoth := by
  simp only [List.mem_cons, List.mem_nil_iff, or_false, not_or] at hs
  unfold carDirection
  rw [if_pos (by simp [h]), if_neg (by simp [Tags.isOneOf, Tags.is, h, hs]), if_neg (by simp [Tags.isOneOf, Tags.is, h, hs]),
    if_neg (by simp [Tags.isOneOf, Tags.is, h, hs]), if_neg (by simp [Tags.isOneOf, Tags.is, h, hs])]

example : carDirection (tagList [(b!"oneway", b!"closed")]) = .openInBoth :=
  C57_unknown_oneway_violated _ b!"closed" (by decide) (by decide)

/-- C57, a `oneway` tag with an unknown value closes the way for bicycles unless a tag of a cycleway opens it. -/
theorem C57_bicycle_unknown_oneway (t : Tags) (s : List Byte) (h : t b!"oneway" = some s)
    (hs : s ∉ [b!"yes", b!"true", b!"1", b!"-1", b!"reverse", b!"backward", b!"no", b!"false", b!"0"])
    (hb : t b!"oneway:bicycle" = none) (hc : t b!"cycleway" = none) (hl : t b!"cycleway:left" = none)
    (hbo : t b!"cycleway:both" = none) : bicycleDirection t = .closed := by
  simp only [List.mem_cons, List.mem_nil_iff, or_false, not_or] at hs
  unfold bicycleDirection
  rw [if_neg (by simp [hb]), if_neg (by simp [h]), if_neg (by simp [Tags.isOneOf, Tags.is, h, hs]),
    if_neg (by simp [Tags.isOneOf, Tags.is, hc]), if_neg (by simp [hbo]), if_neg (by simp [hl]),
    if_neg (by simp [Tags.isOneOf, Tags.is, h, hs]), if_neg (by simp [Tags.isOneOf, Tags.is, h, hs])]
  split <;> rfl

/-- C57, a tag `oneway:bicycle` decides alone. -/
theorem C57_bicycle_oneway (t t' : Tags) (s : List Byte) (h : t b!"oneway:bicycle" = some s)
    (h' : t' b!"oneway:bicycle" = some s) : bicycleDirection t = bicycleDirection t' := by
  have e : ∀ v, t.isOneOf b!"oneway:bicycle" v = t'.isOneOf b!"oneway:bicycle" v := by
    intro v
    simp only [Tags.isOneOf, Tags.is, h, h']
  have i : (t b!"oneway:bicycle").isSome = true := by simp [h]
  have i' : (t' b!"oneway:bicycle").isSome = true := by simp [h']
  unfold bicycleDirection
  simp only [e, i, i', if_true]

/-- Ferries marked by the tag `ferry=yes` are used by cars but not by pedestrians and bicycles, for which the code looks for
`ferry=ferry`. -/
theorem C57_ferry_only_for_cars_violated :
    usedByCars (tagList [(b!"ferry", b!"yes")]) = true ∧ usedByPedestrians (tagList [(b!"ferry", b!"yes")]) = false ∧
    usedByBicycles (tagList [(b!"ferry", b!"yes")]) = false := by decide

/-- C57, the comfort level lies between `get_min_bicycle_comfort_level()` and `get_max_bicycle_comfort_level()`; a way for
bicycles has the highest one. -/
theorem C57_comfort_level (t : Tags) : bicycleComfort t ≤ 4 ∧
    (bicycleComfort t = 4 ↔ t b!"highway" = some b!"cycleway") := by
  unfold bicycleComfort
  by_cases h : t b!"highway" = some b!"cycleway"
  · rw [if_pos (by simp [Tags.is, h])]
    simp [h]
  · rw [if_neg (by simp [Tags.is, h])]
    simp only [h, iff_false]
    split
    · split <;> decide
    · split
      · decide
      · split <;> decide

/-! ## C58 -/

/-- C58: a relation with a known value of the tag `restriction` is reported exactly if it has a meaning, once for each pair
of a way with the role `from` and a way with the role `to`. -/
theorem C58_turn_restrictions (relation : BitVec 64) (members : List Member) (t : Tags)
    (hl : members.length < invalidId) (hty : ∀ m ∈ members, m.1 < 3) (c : RestrictionCategory) (d : TurnDirection)
    (r : List Byte) (hr : t b!"restriction" = some r) (hk : (r, c, d) ∈ restrictionTexts) :
    decodeRestrictions relation members t =
      some (if SoundRestriction c members then restrictionsOf relation members c d else []) :=
  decode_ok relation members t hl hty c d r hr hk

/-- C58: other relations are ignored. -/
theorem C58_other_relations (relation : BitVec 64) (members : List Member) (t : Tags)
    (h : ∀ r, t b!"restriction" = some r → ∀ c d, (r, c, d) ∉ restrictionTexts) :
    decodeRestrictions relation members t = some [] :=
  decode_none relation members t h

/-- The relation 7 forbids to turn left at the node 5 from the ways 1 and 2 into the way 3. -/
example : decodeRestrictions 7 [(1, 1, b!"from"), (0, 5, b!"via"), (1, 2, b!"from"), (0, 9, b!"location_hint"),
      (1, 3, b!"to")] (tagList [(b!"restriction", b!"no_left_turn")]) =
    some [⟨7, .prohibitive, .left, 1, 5, 3⟩, ⟨7, .prohibitive, .left, 2, 5, 3⟩] := by
  rw [C58_turn_restrictions 7 _ _ (by decide) (by decide) .prohibitive .left b!"no_left_turn" (by decide) (by decide)]
  decide

example : decodeRestrictions 7 [(1, 1, b!"from")] (tagList [(b!"restriction", b!"no_entry")]) = some [] :=
  C58_other_relations _ _ _ (by
    intro r hr c d
    have : r = b!"no_entry" := by
      have h : tagList [(b!"restriction", b!"no_entry")] b!"restriction" = some b!"no_entry" := by decide
      rw [h] at hr; exact (Option.some.inj hr).symm
    subst this
    cases c <;> cases d <;> decide)

end RK.Props
