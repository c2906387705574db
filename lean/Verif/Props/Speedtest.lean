import Verif.Proof.Speedtest
import Verif.Props.OsmPbf
/-! # C102: the speedtest of the PBF reader -/
namespace RK.Props
open RK _root_.Spec Osm

/-- C102 for every byte string as file, every clock and schedule: between the first and the last message there are the reports
that the specification asks for, about exactly the objects for which the reader calls callbacks. If the reader throws, the
speedtest throws, after the reports for what was read, and without the last message. -/
theorem C102_messages (inflate : List Byte → Option (List Byte)) (own : Bool) (k : Nat) (clock : Nat → Int) (file : List Byte) :
    ∃ reports rest, SpeedReports 0 (timed clock ((unorderedRead inflate own ⟨true, true, true⟩ k file).1.map OsmEvent.kind)) reports rest ∧
      ((∃ m, (unorderedRead inflate own ⟨true, true, true⟩ k file).2 = .ok m) →
        speedtest inflate own k clock true file =
          ("Starting scan speedtest".toList :: reports ++ ["Speedtest finished".toList], .ok ())) ∧
      ((unorderedRead inflate own ⟨true, true, true⟩ k file).2 = .error →
        speedtest inflate own k clock true file = ("Starting scan speedtest".toList :: reports, .error)) := by
  obtain ⟨ts, rest, h1, h2⟩ := speed_loop
    ((unorderedRead inflate own ⟨true, true, true⟩ k file).1.zipIdx.map fun e => (e.1, clock e.2))
    ⟨0, 0, 0, 0, ["Starting scan speedtest".toList]⟩ [] ⟨rfl, rfl, rfl⟩ (by simp)
  rw [List.nil_append, timed_events] at h2
  refine ⟨ts, rest, h2, ?_, ?_⟩
  · rintro ⟨m, hm⟩
    simp only [speedtest, hm, h1]
    rfl
  · intro hm
    simp only [speedtest, hm, h1]
    rfl

/-- C102 for valid files (as in C56): the reports are about the objects of the file, in the order of the file. -/
theorem C102_valid_files {inflate : List Byte → Option (List Byte)} {required optional : List Str} {file : List Byte} {items : List OsmItem}
    (h : EncodesFile inflate required optional file items) (hid : ∀ i ∈ items, ¬ i.Reserved) (own : Bool) (k : Nat) (clock : Nat → Int) :
    ∃ reports rest, speedtest inflate own k clock true file =
        ("Starting scan speedtest".toList :: reports ++ ["Speedtest finished".toList], .ok ()) ∧
      SpeedReports 0 (timed clock (items.map OsmItem.kind)) reports rest := by
  obtain ⟨es, m, e, hr⟩ := C56_unordered_partial h hid own (c := ⟨true, true, true⟩) (.inl rfl) k
  have hall : items.filter (⟨true, true, true⟩ : Wanted).wants = items := by
    rw [List.filter_eq_self]
    intro i _
    cases i <;> rfl
  rw [hall] at hr
  obtain ⟨reports, rest, h1, h2, _⟩ := C102_messages inflate own k clock file
  rw [e] at h1 h2
  rw [kinds_of_reported hr] at h1
  exact ⟨reports, rest, h2 ⟨m, rfl⟩, h1⟩

/-- C102, the specification: the reports and the rest cover every object exactly once, in order. `parts` are what the reports are
about. So the numbers in the reports add up to the number of objects if and only if nothing is read after the last report. -/
theorem C102_every_object_once_partial {last : Int} {objects rest : List (OsmKind × Int)} {reports : List (List Char)}
    (h : SpeedReports last objects reports rest) :
    ∃ parts : List (List (OsmKind × Int)), objects = parts.flatten ++ rest ∧
      List.Forall₂ (fun t part => part ≠ [] ∧ IsReport t (part.map (·.1))) reports parts := by
  induction h with
  | quiet _ => exact ⟨[], by simp, .nil⟩
  | @report last before o behind t ts rest _ _ ht _ ih =>
    obtain ⟨parts, e, hp⟩ := ih
    refine ⟨(before ++ [o]) :: parts, ?_, .cons ⟨by simp, ht⟩ hp⟩
    rw [e]
    simp

/-- C102 is violated: what is read after the last report is not reported. In every file that is read within a second (by a clock
whose first second is over) only the first object is reported. -/
theorem C102_rest_not_reported (clock : Nat → Int) (first : OsmKind) (more : List OsmKind) (h0 : 1000000 < clock 0)
    (hq : ∀ i, clock i ≤ clock 0 + 1000000) {reports : List (List Char)} {rest : List (OsmKind × Int)}
    (h : SpeedReports 0 (timed clock (first :: more)) reports rest) :
    ∃ t, reports = [t] ∧ IsReport t [first] ∧ rest.map (·.1) = more := by
  have quiet : ∀ (objects : List (OsmKind × Int)) ts rest, (∀ o ∈ objects, o.2 ≤ clock 0 + 1000000) →
      SpeedReports (clock 0) objects ts rest → ts = [] ∧ rest = objects := by
    intro objects ts rest ho h
    cases h with
    | quiet _ => exact ⟨rfl, rfl⟩
    | report _ late _ _ =>
      have := ho _ (List.mem_append_right _ (List.mem_cons_self ..))
      omega
  have e0 : timed clock (first :: more) = (first, clock 0) :: (more.zipIdx 1).map fun e => (e.1, clock e.2) := rfl
  have hmore : ∀ o ∈ ((more.zipIdx 1).map fun e => (e.1, clock e.2)), o.2 ≤ clock 0 + 1000000 := by
    intro o ho
    obtain ⟨x, _, rfl⟩ := List.mem_map.mp ho
    exact hq _
  have names : ((more.zipIdx 1).map fun e => (e.1, clock e.2)).map (·.1) = more := by
    rw [List.map_map]
    exact List.zipIdx_map_fst 1 more
  rw [e0] at h
  generalize hobj : ((first, clock 0) :: (more.zipIdx 1).map fun e => (e.1, clock e.2)) = objects at h
  cases h with
  | quiet hq0 =>
    have := hq0 (first, clock 0) (by rw [← hobj]; exact List.mem_cons_self ..)
    simp only at this
    omega
  | @report _ before o behind t ts rest hb late ht hm =>
    cases before with
    | nil =>
      obtain ⟨e1, e2⟩ := List.cons.inj hobj
      subst e1 e2
      obtain ⟨rfl, rfl⟩ := quiet _ _ _ hmore hm
      exact ⟨t, rfl, ht, names⟩
    | cons b before =>
      obtain ⟨e1, _⟩ := List.cons.inj hobj
      have := hb b (List.mem_cons_self ..)
      rw [← e1] at this
      simp only at this
      omega

/-- C102: without a function for messages the speedtest throws before anything is read. -/
theorem C102_needs_log (inflate : List Byte → Option (List Byte)) (own : Bool) (k : Nat) (clock : Nat → Int) (file : List Byte) :
    speedtest inflate own k clock false file = ([], .error) := rfl

/-- Three nodes and a way; the second report is about the two nodes in the middle, the way is not reported. -/
example : SpeedReports 0 [(.node, 5000000), (.node, 5500000), (.node, 6000001), (.way, 6000002)]
    ["Read         1 nodes,         0 ways,         0 relations last second".toList,
     "Read         2 nodes,         0 ways,         0 relations last second".toList] [(.way, 6000002)] := by
  refine .report (before := []) (o := (.node, 5000000)) (by simp) (by decide) ?_
    (.report (before := [(.node, 5500000)]) (o := (.node, 6000001)) (by simp) (by decide) ?_ (.quiet (by simp)))
  · exact ⟨"        1".toList, "        0".toList, "        0".toList, shows_setw9 1, shows_setw9 0, shows_setw9 0, by decide⟩
  · exact ⟨"        2".toList, "        0".toList, "        0".toList, shows_setw9 2, shows_setw9 0, shows_setw9 0, by decide⟩

/-- A valid file without reserved ids. -/
example : ∃ inflate required optional file, EncodesFile inflate required optional file exItems ∧ ∀ i ∈ exItems, ¬ i.Reserved :=
  ⟨_, _, _, _, exFile_ok, by simp [exItems, OsmItem.Reserved]⟩

end RK.Props
