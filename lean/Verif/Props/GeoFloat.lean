import Verif.Proof.GeoSelf
import Verif.Proof.CosSeries
import Verif.Proof.VpFloat
import Verif.Props.GeoDist
/-!
# C85: distances and nearest nodes with floating point numbers

`geo_dist` as it is written, with IEEE 754 arithmetic.
-/
namespace RK.Props
open RK Ieee

/-! ### The hypotheses about the mathematical library can be met -/

/-- A library with correctly rounded functions. -/
noncomputable def roundedLib : MathLib where
  cos x := dbl (Real.cos x)
  acos x := if |x| ≤ 1 then some (dbl (Real.arccos x)) else none

theorem roundedLib_good : roundedLib.Good where
  cos_double x := rnd_rnd (by norm_num) _
  cos_zero := by
    have := rnd_exact (p := 53) (by norm_num) (n := 1) (e := 0) (by norm_num)
    norm_num at this
    simp only [roundedLib, Real.cos_zero]
    exact this
  cos_near x := by
    have := rnd_near 53 (Real.cos x)
    rw [abs_sub_comm] at this
    have hu := ulp_pos 53 (Real.cos x)
    exact this.trans (by norm_num; linarith)
  acos_nan x h := by
    simp only [roundedLib]
    rw [if_neg (not_le.2 h)]
  acos_double x h := by
    refine ⟨dbl (Real.arccos x), by simp only [roundedLib]; rw [if_pos h], rnd_rnd (by norm_num) _, ?_⟩
    have := rnd_near 53 (Real.arccos x)
    rw [abs_sub_comm] at this
    have hu := ulp_pos 53 (Real.arccos x)
    exact this.trans (by norm_num; linarith)

/-! ### Distances -/

/-- **C85**, distances (partial): for positions in the documented range, the result of `geo_dist` is a number that differs from the great circle
distance by at most 1.5 m, or it is not a number and the positions are at most 1.5 m from each other or from being antipodes. -/
theorem C85_distance_error_partial {m : MathLib} (hm : m.Good) (contract : Bool) (x y : ℝ × ℝ) (hx : InRange x) (hy : InRange y) :
    match Ieee.geoDist m contract x y with
    | some d => |d - RK.geoDist x y| ≤ 1.5
    | none => RK.geoDist x y < 1.5 ∨ Real.pi * RK.earthRadius - 1.5 < RK.geoDist x y := by
  have hc : |RK.geoCos x y| ≤ 1 := abs_le.2 (C51_acos_defined x y)
  cases h : Ieee.geoDist m contract x y with
  | none => exact geoDist_none hm contract hx hy hc h
  | some d => exact geoDist_some hm contract hx hy hc h

/-- **C85**, distance of a position to itself (partial): outside of the latitudes between 29.9 and 45.1 degrees it is a number of at most 1.5 m.
Between them it may be not a number, see `C85_self_distance_nan_violated`. -/
theorem C85_self_distance_partial {m : MathLib} (hm : m.Good) (contract : Bool) (x : ℝ × ℝ) (hx : InRange x) (h : |x.1| ≤ 29.9 ∨ 45.1 ≤ |x.1|) :
    ∃ d, Ieee.geoDist m contract x x = some d ∧ |d| ≤ 1.5 := by
  have h1 := len_self_latitude hm contract hx h
  have hs : RK.geoDist x x = 0 := C51_metric.self x
  have h2 := abs_le.1 (len_error hm contract hx hx)
  have hg : RK.geoCos x x = 1 := by
    have h3 := C51_acos_defined x x
    unfold RK.geoDist at hs
    have hR := earthRadius_pos
    have : Real.arccos (RK.geoCos x x) = 0 := by
      rcases mul_eq_zero.1 hs with h | h
      · exact h
      · exact absurd h hR.ne'
    exact le_antisymm h3.2 (Real.arccos_eq_zero.1 this)
  obtain ⟨z, hz, _⟩ := hm.acos_double (geoLen m contract x x) (abs_le.2 ⟨by rw [hg] at h2; norm_num at h2 ⊢; linarith, h1⟩)
  refine ⟨dbl (z * Ieee.earthRadius), by unfold Ieee.geoDist; rw [hz]; rfl, ?_⟩
  have := C85_distance_error_partial hm contract x x hx hx
  rw [show Ieee.geoDist m contract x x = some (dbl (z * Ieee.earthRadius)) by unfold Ieee.geoDist; rw [hz]; rfl] at this
  simp only [hs, sub_zero] at this
  exact this

theorem piDiv180_eq : Ieee.piDiv180 = 5030569068109444 * 2 ^ (-58 : ℤ) := by
  have h1 : dbl 3.14159265359 = (7074237752028906 : ℤ) * 2 ^ (-51 : ℤ) :=
    rnd_eq 53 (by norm_num) (by norm_num) (by norm_num)
  unfold Ieee.piDiv180
  rw [h1]
  have h2 : rnd 53 ((7074237752028906 : ℤ) * 2 ^ (-51 : ℤ) / 180) = (5030569068109444 : ℤ) * 2 ^ (-58 : ℤ) :=
    rnd_eq 53 (by norm_num) (by norm_num) (by norm_num)
  rw [dbl, h2]
  norm_num

/-- The argument of the cosine. -/
theorem arg_eq : dbl (dbl (41.75 + 41.75) * Ieee.piDiv180) = 6563320581049040 * 2 ^ (-52 : ℤ) := by
  have h1 : dbl (41.75 + 41.75) = (167 : ℤ) * 2 ^ (-1 : ℤ) := by
    rw [show (41.75 : ℝ) + 41.75 = (167 : ℤ) * 2 ^ (-1 : ℤ) by norm_num]
    exact rnd_exact (by norm_num) (by norm_num)
  rw [h1, piDiv180_eq]
  have h2 : rnd 53 ((167 : ℤ) * 2 ^ (-1 : ℤ) * (5030569068109444 * 2 ^ (-58 : ℤ))) = (6563320581049040 : ℤ) * 2 ^ (-52 : ℤ) :=
    rnd_eq 53 (by norm_num) (by norm_num) (by norm_num)
  rw [dbl, h2]
  norm_num

theorem cos_arg : |Real.cos (6563320581049040 * 2 ^ (-52 : ℤ)) - 8157151221469737 * 2 ^ (-56 : ℤ)| ≤ 0.02 * 2 ^ (-56 : ℤ) := by
  have h := cosSeries_near (6563320581049040 * 2 ^ (-52 : ℤ)) 14 (by norm_num)
  have h1 : |cosSeries (6563320581049040 * 2 ^ (-52 : ℤ)) 14 - 8157151221469737 * 2 ^ (-56 : ℤ)| ≤ 0.019 * 2 ^ (-56 : ℤ) := by
    norm_num [cosSeries, Nat.factorial, abs_le]
  have h2 : (|(6563320581049040 * 2 ^ (-52 : ℤ) : ℚ)| ^ (2 * 14) / (2 * 14).factorial * 2 : ℚ) ≤ 0.001 * 2 ^ (-56 : ℤ) := by
    norm_num [Nat.factorial]
  have h1' : ((|cosSeries (6563320581049040 * 2 ^ (-52 : ℤ)) 14 - 8157151221469737 * 2 ^ (-56 : ℤ)| : ℚ) : ℝ) ≤ ((0.019 * 2 ^ (-56 : ℤ) : ℚ) : ℝ) := by
    exact_mod_cast h1
  have h2' : ((|(6563320581049040 * 2 ^ (-52 : ℤ) : ℚ)| ^ (2 * 14) / (2 * 14).factorial * 2 : ℚ) : ℝ) ≤ ((0.001 * 2 ^ (-56 : ℤ) : ℚ) : ℝ) := by
    exact_mod_cast h2
  have h3 := h.trans h2'
  rw [Rat.cast_abs, Rat.cast_sub] at h1'
  have := (abs_sub_le _ _ _).trans (add_le_add h3 h1')
  push_cast at this
  refine this.trans (by norm_num)

theorem cos_value {m : MathLib} (hm : m.Good) : m.cos (6563320581049040 * 2 ^ (-52 : ℤ)) = 8157151221469737 * 2 ^ (-56 : ℤ) := by
  have h1 := hm.cos_near (6563320581049040 * 2 ^ (-52 : ℤ))
  have h2 := hm.cos_double (6563320581049040 * 2 ^ (-52 : ℤ))
  have h3 := cos_arg
  generalize Real.cos (6563320581049040 * 2 ^ (-52 : ℤ)) = c at h1 h3
  generalize m.cos (6563320581049040 * 2 ^ (-52 : ℤ)) = v at h1 h2 ⊢
  have h4 := abs_le.1 h3
  have hc : ulp 53 c = 2 ^ (-56 : ℤ) := by
    refine ulp_eq 53 ?_ ?_
    · rw [abs_of_nonneg (by norm_num at h4 ⊢; linarith)]
      norm_num at h4 ⊢; linarith
    · rw [abs_of_nonneg (by norm_num at h4 ⊢; linarith)]
      norm_num at h4 ⊢; linarith
  rw [hc] at h1
  have h5 := abs_le.1 h1
  have hv : ulp 53 v = 2 ^ (-56 : ℤ) := by
    refine ulp_eq 53 ?_ ?_
    · rw [abs_of_nonneg (by norm_num at h4 h5 ⊢; linarith)]
      norm_num at h4 h5 ⊢; linarith
    · rw [abs_of_nonneg (by norm_num at h4 h5 ⊢; linarith)]
      norm_num at h4 h5 ⊢; linarith
  unfold dbl rnd at h2
  rw [hv] at h2
  generalize roundEven (v / 2 ^ (-56 : ℤ)) = k at h2
  have hu : (0 : ℝ) < 2 ^ (-56 : ℤ) := by positivity
  have k1 : (8157151221469736 : ℝ) < k := by
    rw [← h2] at h5
    norm_num at h4 h5 ⊢; linarith
  have k2 : (k : ℝ) < 8157151221469738 := by
    rw [← h2] at h5
    norm_num at h4 h5 ⊢; linarith
  have k1' : 8157151221469736 < k := by exact_mod_cast k1
  have k2' : k < 8157151221469738 := by exact_mod_cast k2
  have : k = 8157151221469737 := by omega
  rw [← h2, this]
  norm_num

/-- The number of which `acos` is taken is larger than one. -/
theorem len_self {m : MathLib} (hm : m.Good) (contract : Bool) (lon : ℝ) :
    geoLen m contract (41.75, lon) (41.75, lon) = 4503599627370497 * 2 ^ (-52 : ℤ) := by
  unfold geoLen
  simp only [sub_self, rnd_zero, zero_mul, hm.cos_zero, mul_one]
  rw [arg_eq, cos_value hm]
  have h1 : rnd 53 (1 + 8157151221469737 * 2 ^ (-56 : ℤ)) = (5013421578712355 : ℤ) * 2 ^ (-52 : ℤ) :=
    rnd_eq 53 (by norm_num) (by norm_num) (by norm_num [abs_lt])
  have h2 : rnd 53 ((5013421578712355 : ℤ) * 2 ^ (-52 : ℤ)) = (5013421578712355 : ℤ) * 2 ^ (-52 : ℤ) := rnd_exact (by norm_num) (by norm_num)
  have h3 : rnd 53 ((5013421578712355 : ℤ) * 2 ^ (-52 : ℤ) + 1) = (4758510603041426 : ℤ) * 2 ^ (-51 : ℤ) := by
    have := rnd_tie 53 (x := (5013421578712355 : ℤ) * 2 ^ (-52 : ℤ) + 1) (e := -51) (n := 4758510603041425) (by norm_num) (by norm_num) (by norm_num)
    rw [this, if_neg (by decide)]
    norm_num
  have h4 : rnd 53 ((4758510603041426 : ℤ) * 2 ^ (-51 : ℤ) - 8157151221469737 * 2 ^ (-56 : ℤ)) = (4503599627370497 : ℤ) * 2 ^ (-51 : ℤ) :=
    rnd_eq 53 (by norm_num) (by norm_num) (by norm_num [abs_lt])
  have h5 : rnd 53 ((4503599627370497 : ℤ) * 2 ^ (-51 : ℤ) * 0.5) = (4503599627370497 : ℤ) * 2 ^ (-52 : ℤ) := by
    rw [show ((4503599627370497 : ℤ) * 2 ^ (-51 : ℤ) * 0.5 : ℝ) = (4503599627370497 : ℤ) * 2 ^ (-52 : ℤ) by norm_num]
    exact rnd_exact (by norm_num) (by norm_num)
  simp only [dbl, h1, h2, h3, ite_self, h4, h5]
  norm_num

/-- C85 is violated: on the latitude 41.75 the distance of every position to itself is not a number. -/
theorem C85_self_distance_nan_violated {m : MathLib} (hm : m.Good) (contract : Bool) (lon : ℝ) :
    Ieee.geoDist m contract (41.75, lon) (41.75, lon) = none := by
  unfold Ieee.geoDist
  rw [len_self hm, hm.acos_nan _ (by norm_num [lt_abs])]
  rfl

/-! ### The index -/

/-- C85 is violated: an index with a single node does not find this node at its own position, whatever the radius; neither among the nearest
nodes nor among all nodes. -/
theorem C85_own_position_missed_violated {m : MathLib} (hm : m.Good) (contract : Bool) (build : ℝ × ℝ → ℝ × ℝ → Option ℝ)
    (nth : Nat → Nat → List (PointData (ℝ × ℝ) (Option ℝ)) → Nat → List (PointData (ℝ × ℝ) (Option ℝ))) (lon : ℝ) (radius : ℝ) (hr : 0 ≤ radius) :
    ∃ g, GeoIndex.buildF (geoOps m contract build) nth [(41.75, lon)] = some g ∧
      g.nearestF (geoOps m contract build) (41.75, lon) (some radius) = some ⟨invalidId, some radius⟩ ∧
      g.findAllF (geoOps m contract build) (41.75, lon) (some radius) = some [] := by
  have hnan : computeDistance m contract (41.75, lon) (41.75, lon) = none := by
    unfold computeDistance
    rw [C85_self_distance_nan_violated hm]
    rfl
  refine ⟨⟨[(41.75, lon)], [0]⟩, ?_, ?_, ?_⟩
  · simp [GeoIndex.buildF, constructTreeF, maxPointsPerLeaf]
  · simp [GeoIndex.nearestF, nearestRecF, maxPointsPerLeaf, forRange, forN, rd, check, geoOps, hnan, hr]
  · simp [GeoIndex.findAllF, findAllRecF, maxPointsPerLeaf, forRange, forN, rd, check, geoOps, hnan, hr]

theorem zip_pointsF {P : Type} {dist : P → P → ℝ} {ε : ℝ} {N : P → P → Prop} {points : List P} {g : GeoIndex P} (h : g.OkF dist ε N points) {i : Nat}
    {x : P} {id : Nat} (h1 : rd g.position i = some x) (h2 : rd g.id i = some id) : points[id]? = some x := by
  have : (x, id) ∈ List.zip g.position g.id := List.mem_of_getElem? (List.getElem?_zip_eq_some.2 ⟨h1, h2⟩)
  exact List.mk_mem_zipIdx_iff_getElem?.1 (h.perm.mem_iff.1 this)

theorem points_zipF {P : Type} {dist : P → P → ℝ} {ε : ℝ} {N : P → P → Prop} {points : List P} {g : GeoIndex P} (h : g.OkF dist ε N points) {id : Nat}
    {x : P} (hx : points[id]? = some x) : ∃ i, i < g.position.length ∧ rd g.position i = some x ∧ rd g.id i = some id := by
  have := h.perm.mem_iff.2 (List.mk_mem_zipIdx_iff_getElem?.2 hx)
  obtain ⟨i, hi⟩ := List.mem_iff_getElem?.1 this
  have h2 := List.getElem?_zip_eq_some.1 hi
  exact ⟨i, (List.getElem?_eq_some_iff.1 h2.1).1, h2.1, h2.2⟩

theorem position_mem {P : Type} {dist : P → P → ℝ} {ε : ℝ} {N : P → P → Prop} {points : List P} {g : GeoIndex P} (h : g.OkF dist ε N points) {x : P}
    (hx : x ∈ g.position) : x ∈ points := by
  obtain ⟨i, hi⟩ := List.mem_iff_getElem?.1 hx
  obtain ⟨hlt, -⟩ := List.getElem?_eq_some_iff.1 hi
  rw [h.length] at hlt
  exact List.mem_of_getElem? (zip_pointsF h (i := i) hi (List.getElem?_eq_getElem hlt))

/-- **C85**, nearest node with rounding (partial): for all operations on floating point numbers that approximate a metric up to `ε` (differences up
to `η`), on points with distances that are numbers. The result is a number of at most the radius; it is a node with its computed distance, or "none";
and no node is closer by more than `4 ε + η`. -/
theorem C85_nearest_partial {P F : Type} {o : DistOps P F} {val : F → Option ℝ} {dist : P → P → ℝ} {ε η : ℝ} {N : P → P → Prop} (hd : IsMetric dist)
    (ha : Approximates o val dist ε η N) (hε : 0 ≤ ε) (hη : 0 ≤ η) (hz : val o.zero = some 0)
    {nth : Nat → Nat → List (PointData P F) → Nat → List (PointData P F)} (hn : NthElementOkF o.lt nth) (points : List P) (hp : points.Pairwise N) :
    ∃ g, GeoIndex.buildF o nth points = some g ∧ ∀ (q : P) (radius : F) (R : ℝ), (∀ p ∈ points, N q p) → val radius = some R → 0 ≤ R →
      ∃ res d, g.nearestF o q radius = some res ∧ val res.distance = some d ∧ d ≤ R ∧ (∀ p ∈ points, d ≤ dist q p + (4 * ε + η)) ∧
        (res = ⟨invalidId, radius⟩ ∨ ∃ p, points[res.id]? = some p ∧ res.distance = o.dist q p) := by
  obtain ⟨g, e, h⟩ := geoBuildF_ok hn hd ha hε points hp
  refine ⟨g, e, fun q radius R hq hR hr => ?_⟩
  obtain ⟨res, d, e1, hN⟩ := nearestRecF_spec hd ha hε hη h.length q (fun x hx => hq x (position_mem h hx)) h.tree (g.position.length + 1)
    ⟨invalidId, radius⟩ R hR (Nat.zero_le _) (Nat.le_refl _) (by omega)
  refine ⟨res, d, ?_, hN.value, hN.le, ?_, ?_⟩
  · unfold GeoIndex.nearestF
    simp only [(ha.le _ _ _ _ hz hR).2 hr, check, if_true, Option.bind_eq_bind, Option.bind_some]
    exact e1
  · intro p hp
    obtain ⟨id, hid⟩ := List.mem_iff_getElem?.1 hp
    obtain ⟨i, hi, h1, -⟩ := points_zipF h hid
    exact hN.all i p (Nat.zero_le _) hi h1
  · rcases hN.src with h1 | ⟨i, x, id, -, -, h1, h2, rfl⟩
    · exact Or.inl h1
    · exact Or.inr ⟨x, zip_pointsF h h1 h2, rfl⟩

/-- **C85**, all nodes within a radius with rounding (partial): every node at most once, only nodes with a computed distance of at most the radius, and
all nodes that are closer than the radius by at least `4 ε + η`. -/
theorem C85_find_all_partial {P F : Type} {o : DistOps P F} {val : F → Option ℝ} {dist : P → P → ℝ} {ε η : ℝ} {N : P → P → Prop} (hd : IsMetric dist)
    (ha : Approximates o val dist ε η N) (hε : 0 ≤ ε) (hη : 0 ≤ η) (hz : val o.zero = some 0)
    {nth : Nat → Nat → List (PointData P F) → Nat → List (PointData P F)} (hn : NthElementOkF o.lt nth) (points : List P) (hp : points.Pairwise N) :
    ∃ g, GeoIndex.buildF o nth points = some g ∧ ∀ (q : P) (radius : F) (R : ℝ), (∀ p ∈ points, N q p) → val radius = some R → 0 ≤ R →
      ∃ res, g.findAllF o q radius = some res ∧ (res.map (·.id)).Nodup ∧
        (∀ r ∈ res, ∃ p d, points[r.id]? = some p ∧ r.distance = o.dist q p ∧ val r.distance = some d ∧ d ≤ R) ∧
        ∀ (id : Nat) p, points[id]? = some p → dist q p + (4 * ε + η) ≤ R → ⟨id, o.dist q p⟩ ∈ res := by
  obtain ⟨g, e, h⟩ := geoBuildF_ok hn hd ha hε points hp
  refine ⟨g, e, fun q radius R hq hR hr => ?_⟩
  obtain ⟨res, e1, hA⟩ := findAllRecF_spec hd ha hε hη h.length q (fun x hx => hq x (position_mem h hx)) radius R hR h.tree (g.position.length + 1)
    [] (Nat.zero_le _) (Nat.le_refl _) (by omega)
  rw [List.nil_append] at e1
  have hs : g.slice 0 g.position.length = List.zip g.position g.id := by
    unfold GeoIndex.slice
    rw [List.drop_zero, List.take_of_length_le (by rw [List.length_zip]; omega)]
  rw [hs] at hA
  refine ⟨res, ?_, ?_, ?_, ?_⟩
  · unfold GeoIndex.findAllF
    simp only [(ha.le _ _ _ _ hz hR).2 hr, check, if_true, Option.bind_eq_bind, Option.bind_some]
    exact e1
  · refine (hA.sound.map (·.id)).nodup (((h.perm.filterMap (hitF o q radius)).map (·.id)).nodup_iff.2 ?_)
    have hsub : ((points.zipIdx.filterMap (hitF o q radius)).map (·.id)).Sublist (points.zipIdx.map Prod.snd) := by
      rw [List.map_filterMap]
      generalize points.zipIdx = l
      induction l with
      | nil => exact List.Sublist.refl _
      | cons x l ih =>
        rw [List.map_cons, List.filterMap_cons]
        unfold hitF at ih ⊢
        split
        · exact ih.cons _
        · rename_i b hb
          split at hb
          · simp only [Option.map_some, Option.some.injEq] at hb
            rw [← hb]
            exact ih.cons_cons _
          · cases hb
    refine hsub.nodup ?_
    rw [List.zipIdx_map_snd]
    exact List.nodup_range'
  · intro r hr'
    obtain ⟨⟨p, j⟩, hm, hh⟩ := List.mem_filterMap.1 (hA.sound.subset hr')
    unfold hitF at hh
    split at hh
    · rename_i hc
      injection hh with hh
      subst hh
      have hpj : points[j]? = some p := List.mk_mem_zipIdx_iff_getElem?.1 (h.perm.mem_iff.1 hm)
      obtain ⟨d, hd1, -⟩ := ha.distances q p (hq p (List.mem_of_getElem? hpj))
      exact ⟨p, d, hpj, rfl, hd1, (ha.le _ _ _ _ hd1 hR).1 hc⟩
    · cases hh
  · intro id p hid hr'
    exact hA.complete (p, id) (h.perm.mem_iff.2 (List.mk_mem_zipIdx_iff_getElem?.2 hid)) hr'

/-- Two positions in the documented range with a distance between 1.5 m and `M`. -/
def Apart (M : ℝ) (x y : ℝ × ℝ) : Prop := InRange x ∧ InRange y ∧ 1.5 ≤ RK.geoDist x y ∧ RK.geoDist x y ≤ M

theorem computeDistance_near {m : MathLib} (hm : m.Good) (contract : Bool) {M : ℝ} (hM : M ≤ Real.pi * RK.earthRadius - 1.5) {x y : ℝ × ℝ} (h : Apart M x y) :
    ∃ d, computeDistance m contract x y = some d ∧ |d - RK.geoDist x y| ≤ 1.5 + (M + 2) / 16777216 := by
  obtain ⟨hx, hy, h1, h2⟩ := h
  have := C85_distance_error_partial hm contract x y hx hy
  cases hg : Ieee.geoDist m contract x y with
  | none => rw [hg] at this; rcases this with h | h <;> linarith
  | some d =>
    rw [hg] at this
    refine ⟨flt d, by unfold computeDistance; rw [hg]; rfl, ?_⟩
    have hn := rnd_near 24 d
    have hd := abs_le.1 this
    have hu : ulp 24 d ≤ (M + 2) / 8388608 := by
      by_cases h0 : d = 0
      · subst h0
        unfold ulp
        norm_num
        linarith
      · have := ulp_le_mul 24 h0
        have h3 : |d| ≤ M + 2 := abs_le.2 ⟨by linarith, by linarith⟩
        norm_num at this
        linarith
    have hn := abs_le.1 hn
    simp only [flt]
    exact abs_le.2 ⟨by linarith, by linarith⟩

/-- The operations of the index, with IEEE arithmetic, approximate the great circle distance. -/
theorem geoOps_approximates {m : MathLib} (hm : m.Good) (contract : Bool) {build : ℝ × ℝ → ℝ × ℝ → Option ℝ} {M ε : ℝ}
    (hM : M ≤ Real.pi * RK.earthRadius - 1.5) (hε : 1.5 + (M + 2) / 16777216 ≤ ε)
    {N : ℝ × ℝ → ℝ × ℝ → Prop} (hN : ∀ x y, N x y → Apart M x y) (hs : ∀ x y, N x y → N y x)
    (hb : ∀ x y, N x y → ∃ d, build x y = some d ∧ |d - RK.geoDist x y| ≤ ε) :
    Approximates (geoOps m contract build) id RK.geoDist ε ((M + 2 * ε) / 16777216) N where
  symm := hs
  distances x y h := by
    obtain ⟨d, h1, h2⟩ := computeDistance_near hm contract hM (hN _ _ h)
    exact ⟨d, h1, h2.trans hε⟩
  construction := hb
  sub x y z h1 h2 a b ea eb := by
    replace h1 := hN _ _ h1
    replace h2 := hN _ _ h2
    obtain ⟨a', ea', ha⟩ := computeDistance_near hm contract hM h1
    obtain ⟨b', eb', hb'⟩ := computeDistance_near hm contract hM h2
    change computeDistance m contract x y = some a at ea
    change computeDistance m contract x z = some b at eb
    rw [ea] at ea'
    rw [eb] at eb'
    injection ea' with ea'
    injection eb' with eb'
    subst ea' eb'
    refine ⟨flt (a - b), by simp only [geoOps, ea, eb, id]; rfl, ?_⟩
    have hn := rnd_near 24 (a - b)
    have hu : ulp 24 (a - b) ≤ (M + 2 * ε) / 8388608 := by
      by_cases h0 : a - b = 0
      · rw [h0]
        unfold ulp
        have := h1.2.2.1
        have := h1.2.2.2
        norm_num
        linarith
      · have := ulp_le_mul 24 h0
        have h3 : |a - b| ≤ M + 2 * ε := by
          have ha := abs_le.1 (ha.trans hε)
          have hb := abs_le.1 (hb'.trans hε)
          have h4 := h1.2.2
          have h5 := h2.2.2
          exact abs_le.2 ⟨by linarith, by linarith⟩
        norm_num at this
        linarith
    have hn := abs_le.1 hn
    simp only [flt]
    exact abs_le.2 ⟨by linarith, by linarith⟩
  le a b x y h1 h2 := by
    simp only [id] at h1 h2
    subst h1 h2
    simp [geoOps]
  lt a b x y h1 h2 := by
    simp only [id] at h1 h2
    subst h1 h2
    simp [geoOps]

theorem Apart.symm {M : ℝ} (x y : ℝ × ℝ) (h : Apart M x y) : Apart M y x := by
  obtain ⟨h1, h2, h3, h4⟩ := h
  rw [C51_metric.symm] at h3 h4
  exact ⟨h2, h1, h3, h4⟩

theorem nearest_of {m : MathLib} (hm : m.Good) (contract : Bool) {build : ℝ × ℝ → ℝ × ℝ → Option ℝ} {M ε : ℝ} (h0 : 0 ≤ M)
    (hM : M ≤ Real.pi * RK.earthRadius - 1.5) (hε : 1.5 + (M + 2) / 16777216 ≤ ε)
    {N : ℝ × ℝ → ℝ × ℝ → Prop} (hN : ∀ x y, N x y → Apart M x y) (hs : ∀ x y, N x y → N y x)
    (hb : ∀ x y, N x y → ∃ d, build x y = some d ∧ |d - RK.geoDist x y| ≤ ε)
    {nth : Nat → Nat → List (PointData (ℝ × ℝ) (Option ℝ)) → Nat → List (PointData (ℝ × ℝ) (Option ℝ))}
    (hn : NthElementOkF (geoOps m contract build).lt nth) (points : List (ℝ × ℝ)) (hp : points.Pairwise N) :
    ∃ g, GeoIndex.buildF (geoOps m contract build) nth points = some g ∧ ∀ (q : ℝ × ℝ) (radius : ℝ), (∀ p ∈ points, N q p) → 0 ≤ radius →
      ∃ i d, g.nearestF (geoOps m contract build) q (some radius) = some ⟨i, some d⟩ ∧ d ≤ radius ∧
        (∀ p ∈ points, d ≤ RK.geoDist q p + (4 * ε + (M + 2 * ε) / 16777216)) ∧
        ((i = invalidId ∧ d = radius) ∨ ∃ p, points[i]? = some p ∧ |d - RK.geoDist q p| ≤ 1.5 + (M + 2) / 16777216) := by
  have hε0 : 0 ≤ ε := le_trans (by positivity) hε
  obtain ⟨g, e, h⟩ := C85_nearest_partial C51_metric (geoOps_approximates hm contract hM hε hN hs hb) hε0 (by positivity) rfl hn points hp
  refine ⟨g, e, fun q radius hq hr => ?_⟩
  obtain ⟨⟨i, d'⟩, d, h1, h2, h3, h4, h5⟩ := h q (some radius) radius hq rfl hr
  simp only [id] at h2
  subst h2
  refine ⟨i, d, h1, h3, h4, ?_⟩
  rcases h5 with h5 | ⟨p, h5, h6⟩
  · left
    injection h5 with h5 h6
    injection h6 with h6
    exact ⟨h5, h6⟩
  · right
    refine ⟨p, h5, ?_⟩
    obtain ⟨c, hc1, hc2⟩ := computeDistance_near hm contract hM (hN _ _ (hq p (List.mem_of_getElem? h5)))
    change some d = computeDistance m contract q p at h6
    rw [hc1] at h6
    injection h6 with h6
    rw [h6]
    exact hc2

theorem find_all_of {m : MathLib} (hm : m.Good) (contract : Bool) {build : ℝ × ℝ → ℝ × ℝ → Option ℝ} {M ε : ℝ} (h0 : 0 ≤ M)
    (hM : M ≤ Real.pi * RK.earthRadius - 1.5) (hε : 1.5 + (M + 2) / 16777216 ≤ ε)
    {N : ℝ × ℝ → ℝ × ℝ → Prop} (hN : ∀ x y, N x y → Apart M x y) (hs : ∀ x y, N x y → N y x)
    (hb : ∀ x y, N x y → ∃ d, build x y = some d ∧ |d - RK.geoDist x y| ≤ ε)
    {nth : Nat → Nat → List (PointData (ℝ × ℝ) (Option ℝ)) → Nat → List (PointData (ℝ × ℝ) (Option ℝ))}
    (hn : NthElementOkF (geoOps m contract build).lt nth) (points : List (ℝ × ℝ)) (hp : points.Pairwise N) :
    ∃ g, GeoIndex.buildF (geoOps m contract build) nth points = some g ∧ ∀ (q : ℝ × ℝ) (radius : ℝ), (∀ p ∈ points, N q p) → 0 ≤ radius →
      ∃ res, g.findAllF (geoOps m contract build) q (some radius) = some res ∧ (res.map (·.id)).Nodup ∧
        (∀ r ∈ res, ∃ p d, points[r.id]? = some p ∧ r.distance = some d ∧ d ≤ radius ∧ |d - RK.geoDist q p| ≤ 1.5 + (M + 2) / 16777216) ∧
        ∀ (i : Nat) p, points[i]? = some p → RK.geoDist q p + (4 * ε + (M + 2 * ε) / 16777216) ≤ radius → i ∈ res.map (·.id) := by
  have hε0 : 0 ≤ ε := le_trans (by positivity) hε
  obtain ⟨g, e, h⟩ := C85_find_all_partial C51_metric (geoOps_approximates hm contract hM hε hN hs hb) hε0 (by positivity) rfl hn points hp
  refine ⟨g, e, fun q radius hq hr => ?_⟩
  obtain ⟨res, h1, h2, h3, h4⟩ := h q (some radius) radius hq rfl hr
  refine ⟨res, h1, h2, fun r hr' => ?_, fun i p h5 h6 => List.mem_map.2 ⟨_, h4 i p h5 h6, rfl⟩⟩
  obtain ⟨p, d, h5, h6, h7, h8⟩ := h3 r hr'
  refine ⟨p, d, h5, h7, h8, ?_⟩
  obtain ⟨c, hc1, hc2⟩ := computeDistance_near hm contract hM (hN _ _ (hq p (List.mem_of_getElem? h5)))
  simp only [id] at h7
  change r.distance = computeDistance m contract q p at h6
  rw [h7, hc1] at h6
  injection h6 with h6
  rw [h6]
  exact hc2

/-- **C85**, nearest node with IEEE arithmetic (partial): for positions that are at least 1.5 m apart. `M` is the largest distance, `ε` the error of
the formula in `construct_tree`. The distance of the result is larger than that of the nearest node by at most `4 ε + (M + 2 ε) / 2 ^ 24`. -/
theorem C85_nearest_on_earth_partial {m : MathLib} (hm : m.Good) (contract : Bool) {build : ℝ × ℝ → ℝ × ℝ → Option ℝ} {M ε : ℝ} (h0 : 0 ≤ M)
    (hM : M ≤ Real.pi * RK.earthRadius - 1.5) (hε : 1.5 + (M + 2) / 16777216 ≤ ε)
    (hb : ∀ x y, Apart M x y → ∃ d, build x y = some d ∧ |d - RK.geoDist x y| ≤ ε)
    {nth : Nat → Nat → List (PointData (ℝ × ℝ) (Option ℝ)) → Nat → List (PointData (ℝ × ℝ) (Option ℝ))}
    (hn : NthElementOkF (geoOps m contract build).lt nth) (points : List (ℝ × ℝ)) (hp : points.Pairwise (Apart M)) :
    ∃ g, GeoIndex.buildF (geoOps m contract build) nth points = some g ∧ ∀ (q : ℝ × ℝ) (radius : ℝ), (∀ p ∈ points, Apart M q p) → 0 ≤ radius →
      ∃ i d, g.nearestF (geoOps m contract build) q (some radius) = some ⟨i, some d⟩ ∧ d ≤ radius ∧
        (∀ p ∈ points, d ≤ RK.geoDist q p + (4 * ε + (M + 2 * ε) / 16777216)) ∧
        ((i = invalidId ∧ d = radius) ∨ ∃ p, points[i]? = some p ∧ |d - RK.geoDist q p| ≤ 1.5 + (M + 2) / 16777216) :=
  nearest_of hm contract h0 hM hε (fun _ _ h => h) Apart.symm hb hn points hp

/-- **C85**, all nodes within a radius with IEEE arithmetic (partial): as before. -/
theorem C85_find_all_on_earth_partial {m : MathLib} (hm : m.Good) (contract : Bool) {build : ℝ × ℝ → ℝ × ℝ → Option ℝ} {M ε : ℝ} (h0 : 0 ≤ M)
    (hM : M ≤ Real.pi * RK.earthRadius - 1.5) (hε : 1.5 + (M + 2) / 16777216 ≤ ε)
    (hb : ∀ x y, Apart M x y → ∃ d, build x y = some d ∧ |d - RK.geoDist x y| ≤ ε)
    {nth : Nat → Nat → List (PointData (ℝ × ℝ) (Option ℝ)) → Nat → List (PointData (ℝ × ℝ) (Option ℝ))}
    (hn : NthElementOkF (geoOps m contract build).lt nth) (points : List (ℝ × ℝ)) (hp : points.Pairwise (Apart M)) :
    ∃ g, GeoIndex.buildF (geoOps m contract build) nth points = some g ∧ ∀ (q : ℝ × ℝ) (radius : ℝ), (∀ p ∈ points, Apart M q p) → 0 ≤ radius →
      ∃ res, g.findAllF (geoOps m contract build) q (some radius) = some res ∧ (res.map (·.id)).Nodup ∧
        (∀ r ∈ res, ∃ p d, points[r.id]? = some p ∧ r.distance = some d ∧ d ≤ radius ∧ |d - RK.geoDist q p| ≤ 1.5 + (M + 2) / 16777216) ∧
        ∀ (i : Nat) p, points[i]? = some p → RK.geoDist q p + (4 * ε + (M + 2 * ε) / 16777216) ≤ radius → i ∈ res.map (·.id) :=
  find_all_of hm contract h0 hM hε (fun _ _ h => h) Apart.symm hb hn points hp

/-! ### The hypotheses can be met -/

/-- Sorting; not a number comes first. -/
def fLe (a b : Option ℝ) : Prop := match a, b with
  | none, _ => True
  | some _, none => False
  | some x, some y => x ≤ y

open Classical in
noncomputable def sortNthF {P : Type} (_ _ : Nat) (l : List (PointData P (Option ℝ))) (_ : Nat) : List (PointData P (Option ℝ)) :=
  l.insertionSort (fun x y => fLe x.distanceToPivot y.distanceToPivot)

open Classical in
theorem sortNthF_ok (m : MathLib) (contract : Bool) (build : ℝ × ℝ → ℝ × ℝ → Option ℝ) :
    NthElementOkF (P := ℝ × ℝ) (geoOps m contract build).lt sortNthF := by
  intro b e l k hk _
  refine ⟨List.perm_insertionSort _ _, fun x hx => ?_⟩
  haveI : Std.Total (fun x y : PointData (ℝ × ℝ) (Option ℝ) => fLe x.distanceToPivot y.distanceToPivot) := ⟨fun x y => by
    cases x.distanceToPivot <;> cases y.distanceToPivot <;> simp [fLe, le_total]⟩
  haveI : IsTrans (PointData (ℝ × ℝ) (Option ℝ)) (fun x y => fLe x.distanceToPivot y.distanceToPivot) := ⟨fun x y z => by
    cases x.distanceToPivot <;> cases y.distanceToPivot <;> cases z.distanceToPivot <;> simp [fLe]
    exact le_trans⟩
  have hlt : ∀ a b : Option ℝ, fLe a b → (geoOps m contract build).lt b a = false := by
    intro a b h
    cases a <;> cases b <;> simp_all [fLe, geoOps]
  have hs := List.pairwise_insertionSort (fun x y : PointData (ℝ × ℝ) (Option ℝ) => fLe x.distanceToPivot y.distanceToPivot) l
  change (sortNthF b e l k).Pairwise _ at hs
  obtain ⟨hlt', hxe⟩ := List.getElem?_eq_some_iff.1 hx
  have hdrop := List.drop_eq_getElem_cons hlt'
  rw [hxe] at hdrop
  rw [← List.take_append_drop k (sortNthF b e l k), List.pairwise_append, hdrop, List.pairwise_cons] at hs
  obtain ⟨h1, ⟨h2, h3⟩, h4⟩ := hs
  refine ⟨fun y hy => hlt _ _ (h4 y hy x List.mem_cons_self), fun y hy => ?_⟩
  rw [hdrop] at hy
  rcases List.mem_cons.1 hy with rfl | hy
  · refine hlt _ _ ?_
    cases y.distanceToPivot <;> simp [fLe]
  · exact hlt _ _ (h2 y hy)

/-- Two positions on the equator, one degree apart. -/
theorem equator_dist : RK.geoDist (0, 0) (0, 1) = RK.piDiv180 * RK.earthRadius := by
  unfold RK.geoDist RK.geoCos RK.piDiv180
  have : Real.arccos (Real.cos (3.14159265359 / 180)) = 3.14159265359 / 180 := Real.arccos_cos (by norm_num) (by have := Real.pi_gt_three; norm_num; linarith)
  simp [Real.cos_zero, Real.cos_neg]
  norm_num at this ⊢
  left
  rw [show ∀ c : ℝ, 2 * c * (1 / 2) = c by intro c; ring]
  exact this

example : [((0 : ℝ), (0 : ℝ)), (0, 1)].Pairwise (Apart 200000) := by
  have h : Apart 200000 (0, 0) (0, 1) := by
    refine ⟨?_, ?_, ?_, ?_⟩
    · constructor <;> norm_num
    · constructor <;> norm_num
    · rw [equator_dist]; norm_num [RK.piDiv180, RK.earthRadius]
    · rw [equator_dist]; norm_num [RK.piDiv180, RK.earthRadius]
  simp [h]

/-- The hypotheses of `C85_nearest_on_earth_partial` hold for the correctly rounded library if the tree is built with `geo_dist`. -/
example : ∀ x y, Apart 200000 x y → ∃ d, computeDistance roundedLib false x y = some d ∧ |d - RK.geoDist x y| ≤ 2 := fun x y h => by
  obtain ⟨d, h1, h2⟩ := computeDistance_near roundedLib_good false (M := 200000) (by
    have := Real.pi_gt_three
    unfold RK.earthRadius
    norm_num
    linarith) h
  exact ⟨d, h1, h2.trans (by norm_num)⟩

example : InRange (50, 8) ∧ |((50 : ℝ), (8 : ℝ)).1| ≥ 45.1 := by
  refine ⟨⟨by norm_num, by norm_num⟩, by norm_num⟩

end RK.Props
