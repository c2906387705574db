import Verif.Proof.VpTree
import Mathlib.Data.List.Sort
import Mathlib.Algebra.Order.Group.Unbundled.Int
import Mathlib.Algebra.Order.Ring.Int
/-!
# C40: the geographic index

For every metric `dist` with values in an ordered commutative group (for instance the exact distance on a sphere with real
values), every list of points and every implementation of `std::nth_element` that does what the standard says.
-/
namespace RK.Props
open RK

variable {P D : Type} [AddCommGroup D] [LinearOrder D] [IsOrderedAddMonoid D]

theorem zip_points {dist : P → P → D} {points : List P} {g : GeoIndex P} (h : g.Ok dist points) {i : Nat} {x : P} {id : Nat}
    (h1 : rd g.position i = some x) (h2 : rd g.id i = some id) : points[id]? = some x := by
  have : (x, id) ∈ List.zip g.position g.id := List.mem_of_getElem? (List.getElem?_zip_eq_some.2 ⟨h1, h2⟩)
  have := h.perm.mem_iff.1 this
  exact List.mk_mem_zipIdx_iff_getElem?.1 this

theorem points_zip {dist : P → P → D} {points : List P} {g : GeoIndex P} (h : g.Ok dist points) {id : Nat} {x : P}
    (hx : points[id]? = some x) : ∃ i, i < g.position.length ∧ rd g.position i = some x ∧ rd g.id i = some id := by
  have := h.perm.mem_iff.2 (List.mk_mem_zipIdx_iff_getElem?.2 hx)
  obtain ⟨i, hi⟩ := List.mem_iff_getElem?.1 this
  have h2 := List.getElem?_zip_eq_some.1 hi
  exact ⟨i, (List.getElem?_eq_some_iff.1 h2.1).1, h2.1, h2.2⟩

/-- **C40**, all points within a radius: the result contains exactly the points within the radius (the boundary included)
with their distances, each point once. -/
theorem C40_find_all_exact {dist : P → P → D} (hd : IsMetric dist) {nth : Nat → Nat → List (PointData P D) → Nat → List (PointData P D)}
    (hn : NthElementOk nth) (points : List P) :
    ∃ g, GeoIndex.build dist nth points = some g ∧ ∀ (q : P) (radius : D), 0 ≤ radius →
      ∃ res, g.findAll dist q radius = some res ∧ (res.map (·.id)).Nodup ∧
        ∀ id d, ⟨id, d⟩ ∈ res ↔ ∃ p, points[id]? = some p ∧ d = dist q p ∧ dist q p ≤ radius := by
  obtain ⟨g, e, h⟩ := geoBuild_ok hn hd points
  refine ⟨g, e, fun q radius hr => ?_⟩
  have hres := findAllRec_spec hd h.length q radius h.tree (g.position.length + 1) [] (Nat.zero_le _) (Nat.le_refl _) (by omega)
  rw [List.nil_append] at hres
  refine ⟨_, by unfold GeoIndex.findAll; simp only [hr, decide_true, check, if_true, Option.bind_eq_bind, Option.bind_some]; exact hres, ?_, ?_⟩
  · have hperm : (hits dist g q radius 0 g.position.length).Perm (points.zipIdx.filterMap (hit dist q radius)) := by
      unfold hits
      rw [List.drop_zero, List.take_of_length_le (by rw [List.length_zip]; omega)]
      exact h.perm.filterMap _
    refine (hperm.map _).nodup_iff.2 ?_
    have hsub : ((points.zipIdx.filterMap (hit dist q radius)).map (·.id)).Sublist (points.zipIdx.map Prod.snd) := by
      rw [List.map_filterMap]
      generalize points.zipIdx = l
      induction l with
      | nil => exact List.Sublist.refl _
      | cons x l ih =>
        rw [List.map_cons, List.filterMap_cons]
        unfold hit at ih ⊢
        split
        · exact ih.cons _
        · rename_i b hb
          split at hb
          · simp only [Option.map_some, Option.some.injEq] at hb
            rw [← hb]
            exact ih.cons_cons _
          · cases hb
    refine hsub.nodup ?_
    rw [List.zipIdx_map_snd]
    exact List.nodup_range'
  · intro id d
    unfold hits
    rw [List.drop_zero, List.take_of_length_le (by rw [List.length_zip]; omega), List.mem_filterMap]
    constructor
    · rintro ⟨⟨p, j⟩, hm, hh⟩
      unfold hit at hh
      split at hh
      · rename_i hc
        injection hh with hh
        injection hh with h1 h2
        simp only [] at h1 h2 hc
        subst h1 h2
        exact ⟨p, List.mk_mem_zipIdx_iff_getElem?.1 (h.perm.mem_iff.1 hm), rfl, hc⟩
      · cases hh
    · rintro ⟨p, hp, rfl, hc⟩
      refine ⟨(p, id), h.perm.mem_iff.2 (List.mk_mem_zipIdx_iff_getElem?.2 hp), ?_⟩
      unfold hit
      rw [if_pos hc]

/-- **C40**, nearest neighbor (partial). The distance in the result is at most the radius and at most the distance of every
point, and the result is a point with this distance or "none". If some point is closer than the radius then the result is a
nearest point; if all points are farther away than the radius then the result is "none".
Missing: if the nearest points are exactly at distance `radius` then the result may be "none", see
`C40_point_on_the_radius_missed_violated`. -/
theorem C40_nearest_neighbor_partial {dist : P → P → D} (hd : IsMetric dist)
    {nth : Nat → Nat → List (PointData P D) → Nat → List (PointData P D)} (hn : NthElementOk nth) (points : List P) :
    ∃ g, GeoIndex.build dist nth points = some g ∧ ∀ (q : P) (radius : D), 0 ≤ radius →
      ∃ res, g.nearest dist q radius = some res ∧ res.distance ≤ radius ∧ (∀ p ∈ points, res.distance ≤ dist q p) ∧
        (res = ⟨invalidId, radius⟩ ∨ ∃ p, points[res.id]? = some p ∧ res.distance = dist q p) ∧
        ((∃ p ∈ points, dist q p < radius) → ∃ p, points[res.id]? = some p ∧ res.distance = dist q p ∧ ∀ p' ∈ points, dist q p ≤ dist q p') ∧
        ((∀ p ∈ points, radius < dist q p) → res = ⟨invalidId, radius⟩) := by
  obtain ⟨g, e, h⟩ := geoBuild_ok hn hd points
  refine ⟨g, e, fun q radius hr => ?_⟩
  obtain ⟨res, e1, hN⟩ := nearestRec_spec hd h.length q h.tree (g.position.length + 1) ⟨invalidId, radius⟩ (Nat.zero_le _) (Nat.le_refl _) (by omega)
  have hall : ∀ p ∈ points, res.distance ≤ dist q p := by
    intro p hp
    obtain ⟨id, hid⟩ := List.mem_iff_getElem?.1 hp
    obtain ⟨i, hi, h1, -⟩ := points_zip h hid
    exact hN.all i p (Nat.zero_le _) hi h1
  have hsrc : res = ⟨invalidId, radius⟩ ∨ ∃ p, points[res.id]? = some p ∧ res.distance = dist q p := by
    rcases hN.src with h1 | ⟨i, x, id, -, -, h1, h2, rfl⟩
    · exact Or.inl h1
    · exact Or.inr ⟨x, zip_points h h1 h2, rfl⟩
  refine ⟨res, ?_, hN.le, hall, hsrc, ?_, ?_⟩
  · unfold GeoIndex.nearest
    simp only [hr, decide_true, check, if_true, Option.bind_eq_bind, Option.bind_some]
    exact e1
  · rintro ⟨p, hp, hlt⟩
    rcases hsrc with h1 | ⟨x, h1, h2⟩
    · have := hall p hp
      rw [h1] at this
      exact absurd hlt (not_lt.2 this)
    · exact ⟨x, h1, h2, fun p' hp' => h2 ▸ hall p' hp'⟩
  · intro hfar
    rcases hsrc with h1 | ⟨x, h1, h2⟩
    · exact h1
    · have h3 := hfar x (List.mem_of_getElem? h1)
      have h4 : res.distance ≤ radius := hN.le
      rw [h2] at h4
      exact absurd h3 (not_lt.2 h4)

/-! ### The hypotheses hold: sorting is a way to implement `nth_element`, and the integers have a metric -/

/-- Sorting by distance. -/
def sortNth {P : Type} (_ _ : Nat) (l : List (PointData P Int)) (_ : Nat) : List (PointData P Int) :=
  l.insertionSort (fun x y => x.distanceToPivot ≤ y.distanceToPivot)

theorem sortNth_ok {P : Type} : NthElementOk (P := P) (D := Int) sortNth := by
  intro b e l k hk
  refine ⟨List.perm_insertionSort _ _, fun x hx => ?_⟩
  haveI : Std.Total (fun x y : PointData P Int => x.distanceToPivot ≤ y.distanceToPivot) := ⟨fun x y => le_total _ _⟩
  haveI : IsTrans (PointData P Int) (fun x y => x.distanceToPivot ≤ y.distanceToPivot) := ⟨fun x y z => le_trans⟩
  have hs := List.pairwise_insertionSort (fun x y : PointData P Int => x.distanceToPivot ≤ y.distanceToPivot) l
  change (sortNth b e l k).Pairwise _ at hs
  obtain ⟨hlt, hxe⟩ := List.getElem?_eq_some_iff.1 hx
  have hdrop := List.drop_eq_getElem_cons hlt
  rw [hxe] at hdrop
  rw [← List.take_append_drop k (sortNth b e l k), List.pairwise_append, hdrop, List.pairwise_cons] at hs
  obtain ⟨h1, ⟨h2, h3⟩, h4⟩ := hs
  refine ⟨fun y hy => not_lt.2 (h4 y hy x List.mem_cons_self), fun y hy => not_lt.2 ?_⟩
  rw [hdrop] at hy
  rcases List.mem_cons.1 hy with rfl | hy
  · exact le_refl _
  · exact h2 y hy

/-- The distance on a line. -/
def lineDist (x y : Int) : Int := if x ≤ y then y - x else x - y

theorem lineDist_metric : IsMetric lineDist := by
  constructor <;> intros <;> unfold lineDist <;> (repeat' split) <;> omega

def linePoints : List Int := [0, 10, 20, 30, 40, 50, 60, 70, 80]

set_option maxRecDepth 100000 in
/-- C40 is violated for points exactly on the radius: with nine points `0, 10, .., 80`, the query `36` and the radius `4`, the
nearest point `40` is at distance `4`, but no point is found (while `find_all_nodes_within_radius` finds it). -/
theorem C40_point_on_the_radius_missed_violated :
    ∃ g, GeoIndex.build lineDist sortNth linePoints = some g ∧ lineDist 36 40 = 4 ∧ linePoints[4]? = some 40 ∧
      g.nearest lineDist 36 4 = some ⟨invalidId, 4⟩ ∧ g.findAll lineDist 36 4 = some [⟨4, 4⟩] := by
  have h : GeoIndex.build lineDist sortNth linePoints = some ⟨linePoints, [0, 1, 2, 3, 4, 5, 6, 7, 8]⟩ := by decide +kernel
  exact ⟨_, h, by decide, by decide, by decide +kernel, by decide +kernel⟩

set_option maxRecDepth 100000 in
example : (GeoIndex.build lineDist sortNth [40, 0, 70, 10, 80, 30, 20, 60, 50]).bind (fun g => g.nearest lineDist 36 20) =
    some ⟨0, 4⟩ := by decide +kernel

end RK.Props
