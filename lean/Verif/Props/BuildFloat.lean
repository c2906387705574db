import Verif.Proof.BuildFloat
import Verif.Props.GeoFloat
/-! # C85: the index of positions as it is constructed by `GeoPositionToNode` -/
namespace RK.Props
open RK Ieee

/-! ### The hypotheses about the mathematical library can be met -/

/-- A library with correctly rounded functions. -/
noncomputable def roundedSingle : SingleLib where
  sin x := flt (Real.sin x)
  cos x := flt (Real.cos x)
  atan2 y x := flt (Complex.arg ⟨x, y⟩)

theorem roundedSingle_good : roundedSingle.Good where
  sin_near x := (Rel.flt _).mono (by norm_num)
  cos_near x := (Rel.flt _).mono (by norm_num)
  atan2_near y x := (Rel.flt _).mono (by norm_num)

/-! ### The formula in the construction -/

/-- **C85**, the formula of the construction (partial): up to 10000 km and away from the poles, the distances in the construction of the index are numbers that
differ from the great circle distance by at most 16.5 m and 4.5 millionths of it. -/
theorem C85_construction_error_partial {l : SingleLib} (hl : l.Good) (f : Fused) {x y : ℝ × ℝ} (hx : InRange x) (hy : InRange y)
    (hx' : |x.1| ≤ 89.9) (hy' : |y.1| ≤ 89.9) (h : RK.geoDist x y ≤ 10000000) :
    ∃ d, buildDist l f x y = some d ∧ |d - RK.geoDist x y| ≤ 16.5 + 0.0000045 * RK.geoDist x y :=
  buildDist_near hl f hx hy hx' hy' h

/-! ### The index -/

/-- Two positions in the documented range, away from the poles, with a distance between 1.5 m and `M`. -/
def ApartOnMap (M : ℝ) (x y : ℝ × ℝ) : Prop := Apart M x y ∧ |x.1| ≤ 89.9 ∧ |y.1| ≤ 89.9

theorem ApartOnMap.symm {M : ℝ} (x y : ℝ × ℝ) (h : ApartOnMap M x y) : ApartOnMap M y x := ⟨Apart.symm _ _ h.1, h.2.2, h.2.1⟩

theorem map_bounds {l : SingleLib} (hl : l.Good) (f : Fused) {M : ℝ} (hM : M ≤ 10000000) (x y : ℝ × ℝ) (h : ApartOnMap M x y) :
    ∃ d, buildDist l f x y = some d ∧ |d - RK.geoDist x y| ≤ 16.5 + 0.0000045 * M := by
  obtain ⟨⟨h1, h2, h3, h4⟩, h5, h6⟩ := h
  obtain ⟨d, e, hd⟩ := buildDist_near hl f h1 h2 h5 h6 (h4.trans hM)
  refine ⟨d, e, hd.trans ?_⟩
  norm_num
  linarith

/-- **C85**, nearest node, everything with IEEE arithmetic (partial): `GeoPositionToNode` for positions on a map of a size of at most 10000 km that are at least
1.5 m apart. The distance of the result is larger than that of the nearest node by at most 67 m and 18.2 millionths of the size of the map. -/
theorem C85_nearest_node_partial {m : MathLib} (hm : m.Good) {l : SingleLib} (hl : l.Good) (contract : Bool) (f : Fused) {M : ℝ} (h0 : 0 ≤ M) (hM : M ≤ 10000000)
    {nth : Nat → Nat → List (PointData (ℝ × ℝ) (Option ℝ)) → Nat → List (PointData (ℝ × ℝ) (Option ℝ))}
    (hn : NthElementOkF (geoOps m contract (buildDist l f)).lt nth) (points : List (ℝ × ℝ)) (hp : points.Pairwise (ApartOnMap M)) :
    ∃ g, GeoIndex.buildF (geoOps m contract (buildDist l f)) nth points = some g ∧ ∀ (q : ℝ × ℝ) (radius : ℝ), (∀ p ∈ points, ApartOnMap M q p) → 0 ≤ radius →
      ∃ i d, g.nearestF (geoOps m contract (buildDist l f)) q (some radius) = some ⟨i, some d⟩ ∧ d ≤ radius ∧
        (∀ p ∈ points, d ≤ RK.geoDist q p + (67 + 0.0000182 * M)) ∧
        ((i = invalidId ∧ d = radius) ∨ ∃ p, points[i]? = some p ∧ |d - RK.geoDist q p| ≤ 1.6 + 0.0000001 * M) := by
  have hpi := Real.pi_gt_three
  obtain ⟨g, e, h⟩ := nearest_of hm contract (M := M) (ε := 16.5 + 0.0000045 * M) h0 (by unfold RK.earthRadius; norm_num; linarith) (by norm_num; linarith) (fun _ _ h => h.1)
    ApartOnMap.symm (map_bounds hl f hM) hn points hp
  refine ⟨g, e, fun q radius hq hr => ?_⟩
  obtain ⟨i, d, h1, h2, h3, h4⟩ := h q radius hq hr
  refine ⟨i, d, h1, h2, fun p hp => (h3 p hp).trans ?_, ?_⟩
  · norm_num
    linarith
  · rcases h4 with h4 | ⟨p, h4, h5⟩
    · exact Or.inl h4
    · refine Or.inr ⟨p, h4, h5.trans ?_⟩
      norm_num
      linarith

/-- **C85**, all nodes within a radius, everything with IEEE arithmetic (partial): as before. -/
theorem C85_nodes_in_radius_partial {m : MathLib} (hm : m.Good) {l : SingleLib} (hl : l.Good) (contract : Bool) (f : Fused) {M : ℝ} (h0 : 0 ≤ M) (hM : M ≤ 10000000)
    {nth : Nat → Nat → List (PointData (ℝ × ℝ) (Option ℝ)) → Nat → List (PointData (ℝ × ℝ) (Option ℝ))}
    (hn : NthElementOkF (geoOps m contract (buildDist l f)).lt nth) (points : List (ℝ × ℝ)) (hp : points.Pairwise (ApartOnMap M)) :
    ∃ g, GeoIndex.buildF (geoOps m contract (buildDist l f)) nth points = some g ∧ ∀ (q : ℝ × ℝ) (radius : ℝ), (∀ p ∈ points, ApartOnMap M q p) → 0 ≤ radius →
      ∃ res, g.findAllF (geoOps m contract (buildDist l f)) q (some radius) = some res ∧ (res.map (·.id)).Nodup ∧
        (∀ r ∈ res, ∃ p d, points[r.id]? = some p ∧ r.distance = some d ∧ d ≤ radius ∧ |d - RK.geoDist q p| ≤ 1.6 + 0.0000001 * M) ∧
        ∀ (i : Nat) p, points[i]? = some p → RK.geoDist q p + (67 + 0.0000182 * M) ≤ radius → i ∈ res.map (·.id) := by
  have hpi := Real.pi_gt_three
  obtain ⟨g, e, h⟩ := find_all_of hm contract (M := M) (ε := 16.5 + 0.0000045 * M) h0 (by unfold RK.earthRadius; norm_num; linarith) (by norm_num; linarith) (fun _ _ h => h.1)
    ApartOnMap.symm (map_bounds hl f hM) hn points hp
  refine ⟨g, e, fun q radius hq hr => ?_⟩
  obtain ⟨res, h1, h2, h3, h4⟩ := h q radius hq hr
  refine ⟨res, h1, h2, fun r hr' => ?_, fun i p hi hd => h4 i p hi (le_trans ?_ hd)⟩
  · obtain ⟨p, d, a1, a2, a3, a4⟩ := h3 r hr'
    refine ⟨p, d, a1, a2, a3, a4.trans ?_⟩
    norm_num
    linarith
  · norm_num
    linarith

/-- The hypotheses can be met. -/
example : [((0 : ℝ), (0 : ℝ)), (0, 1)].Pairwise (ApartOnMap 200000) := by
  have h : ApartOnMap 200000 (0, 0) (0, 1) := by
    refine ⟨⟨?_, ?_, ?_, ?_⟩, by norm_num, by norm_num⟩
    · constructor <;> norm_num
    · constructor <;> norm_num
    · rw [equator_dist]; norm_num [RK.piDiv180, RK.earthRadius]
    · rw [equator_dist]; norm_num [RK.piDiv180, RK.earthRadius]
  simp [h]

example (contract : Bool) (f : Fused) : NthElementOkF (P := ℝ × ℝ) (geoOps roundedLib contract (buildDist roundedSingle f)).lt sortNthF := sortNthF_ok _ _ _

/-! ### Several nodes on the same position -/

/-- C85 is violated: if the position of the first node occurs twice, on the latitude 41.75, then the construction of the index has undefined behaviour for all lists
of at least nine nodes of which two have different distances to the first: `std::nth_element` is called with a comparison that is not a strict weak order. -/
theorem C85_same_position_undefined_violated {m : MathLib} (hm : m.Good) (contract : Bool) (build : ℝ × ℝ → ℝ × ℝ → Option ℝ)
    (nth : Nat → Nat → List (PointData (ℝ × ℝ) (Option ℝ)) → Nat → List (PointData (ℝ × ℝ) (Option ℝ))) (lon : ℝ) (rest : List (ℝ × ℝ)) (hl : 8 ≤ rest.length)
    (h0 : (41.75, lon) ∈ rest) {p q : ℝ × ℝ} (hp : p ∈ rest) (hq : q ∈ rest) (hap : Apart 10000000 (41.75, lon) p) (haq : Apart 10000000 (41.75, lon) q)
    (hd : RK.geoDist (41.75, lon) p + 5 ≤ RK.geoDist (41.75, lon) q) :
    GeoIndex.buildF (geoOps m contract build) nth ((41.75, lon) :: rest) = none := by
  have hpi := Real.pi_gt_three
  have hM : (10000000 : ℝ) ≤ Real.pi * RK.earthRadius - 1.5 := by unfold RK.earthRadius; norm_num; linarith
  obtain ⟨a, ea, ha⟩ := computeDistance_near hm contract hM hap
  obtain ⟨b, eb, hb⟩ := computeDistance_near hm contract hM haq
  have hnan : computeDistance m contract (41.75, lon) (41.75, lon) = none := by
    unfold computeDistance
    rw [C85_self_distance_nan_violated hm]
    rfl
  have hab : a < b := by
    have ha := abs_le.1 ha
    have hb := abs_le.1 hb
    norm_num at ha hb
    linarith
  have key : ∀ l : List (Option ℝ), none ∈ l → some a ∈ l → some b ∈ l → ¬ StrictWeak (geoOps m contract build).lt l := by
    intro l h1 h2 h3 h
    have := (h.2.2 (some a) h2 none h1 (some b) h3 rfl rfl rfl rfl).1
    simp only [geoOps, decide_eq_false_iff_not] at this
    exact this hab
  have e : (((41.75, lon) :: rest).zipIdx.filterMap (fun x => ((41.75, lon) :: rest).head?.map
      (fun p0 => (⟨x.1, x.2, (geoOps m contract build).dist p0 x.1⟩ : PointData (ℝ × ℝ) (Option ℝ)))))
      = ⟨(41.75, lon), 0, none⟩ :: (rest.zipIdx 1).map (fun x => ⟨x.1, x.2, computeDistance m contract (41.75, lon) x.1⟩) := by
    simp [geoOps, hnan, List.filterMap_eq_map']
  have hs : ¬ StrictWeak (geoOps m contract build).lt (((((⟨(41.75, lon), 0, none⟩ : PointData (ℝ × ℝ) (Option ℝ)) :: (rest.zipIdx 1).map
      (fun x => ⟨x.1, x.2, computeDistance m contract (41.75, lon) x.1⟩)).drop (0 + 1)).take (((41.75, lon) :: rest).length - (0 + 1))).map (·.distanceToPivot)) := by
    have hmem : ∀ z ∈ rest, computeDistance m contract (41.75, lon) z ∈ (((((⟨(41.75, lon), 0, none⟩ : PointData (ℝ × ℝ) (Option ℝ)) :: (rest.zipIdx 1).map
        (fun x => ⟨x.1, x.2, computeDistance m contract (41.75, lon) x.1⟩)).drop (0 + 1)).take (((41.75, lon) :: rest).length - (0 + 1))).map (·.distanceToPivot)) := by
      intro z hz
      rw [List.drop_succ_cons, List.drop_zero, List.take_of_length_le (by simp), List.map_map, List.mem_map]
      obtain ⟨i, hi, rfl⟩ := List.mem_iff_getElem.1 hz
      exact ⟨(rest[i], 1 + i), by simp [List.mk_mem_zipIdx_iff_le_and_getElem?_sub], rfl⟩
    exact key _ (hnan ▸ hmem _ h0) (ea ▸ hmem _ hp) (eb ▸ hmem _ hq)
  unfold GeoIndex.buildF
  simp only [e]
  unfold constructTreeF
  rw [if_pos (by simp only [List.length_cons, maxPointsPerLeaf]; omega)]
  unfold nthElementF
  simp only [if_neg hs]
  rfl

/-- An example: eight nodes on the same position and two others. -/
example {m : MathLib} (hm : m.Good) (contract : Bool) (build : ℝ × ℝ → ℝ × ℝ → Option ℝ)
    (nth : Nat → Nat → List (PointData (ℝ × ℝ) (Option ℝ)) → Nat → List (PointData (ℝ × ℝ) (Option ℝ))) :
    GeoIndex.buildF (geoOps m contract build) nth (List.replicate 8 (41.75, 2) ++ [(42.75, 2), (43.75, 2)]) = none := by
  have hd : ∀ t : ℝ, 0 ≤ t → t ≤ 90 → RK.geoDist (41.75, 2) (41.75 + t, 2) = t * RK.piDiv180 * RK.earthRadius := by
    intro t h1 h2
    have hp := Real.pi_gt_three
    unfold RK.geoDist RK.geoCos
    congr 1
    rw [show ((41.75 : ℝ) - (41.75 + t)) = -t by ring, neg_mul, Real.cos_neg, sub_self, zero_mul, Real.cos_zero]
    rw [show ∀ c d : ℝ, ((c + d) * 1 + c - d) * 0.5 = c by intro c d; ring]
    refine Real.arccos_cos (mul_nonneg h1 piDiv180_pos.le) ?_
    unfold RK.piDiv180
    norm_num
    linarith
  have d1 := hd 1 (by norm_num) (by norm_num)
  have d2 := hd 2 (by norm_num) (by norm_num)
  rw [show (41.75 : ℝ) + 1 = 42.75 by norm_num] at d1
  rw [show (41.75 : ℝ) + 2 = 43.75 by norm_num] at d2
  refine C85_same_position_undefined_violated hm contract build nth 2 (List.replicate 7 (41.75, 2) ++ [(42.75, 2), (43.75, 2)]) (by simp) (by simp)
    (p := (42.75, 2)) (q := (43.75, 2)) (by simp) (by simp) ?_ ?_ ?_
  · refine ⟨⟨by norm_num [abs_le], by norm_num [abs_le]⟩, ⟨by norm_num [abs_le], by norm_num [abs_le]⟩, ?_, ?_⟩ <;>
      rw [d1] <;> norm_num [RK.piDiv180, RK.earthRadius]
  · refine ⟨⟨by norm_num [abs_le], by norm_num [abs_le]⟩, ⟨by norm_num [abs_le], by norm_num [abs_le]⟩, ?_, ?_⟩ <;>
      rw [d2] <;> norm_num [RK.piDiv180, RK.earthRadius]
  · rw [d1, d2]
    norm_num [RK.piDiv180, RK.earthRadius]

end RK.Props
