import Verif.Model.ReadmeFloat
import Verif.Props.OsmRoutes
import Verif.Props.OsmFloat
import Verif.Props.BuildFloat
/-! # C89: the example program with floating point numbers -/
namespace RK.Props
open RK RK.Osm _root_.Spec RK.Spec Ieee

/-- What is needed of a file, in terms of the exact positions of its nodes: the counts as in `CarFile`; the positions of the routing nodes are known,
not at the poles, and between 6 m and `M - 5` m from each other; consecutive nodes of the stretches are at least 6 m apart, and no stretch is longer
than 99 km. -/
structure EarthFile (inflate : List Byte → Option (List Byte)) (file : List Byte) (items : List OsmItem) (M : ℝ) : Prop where
  encoded : ∃ required optional, EncodesFile inflate required optional file items
  reserved : ∀ i ∈ items, ¬ i.Reserved
  good : ∀ i ∈ items, i.GoodIds
  unique : UniqueWays items
  members : GoodMembers items
  nodes : ((usedWays (fun _ => usedByCars) items).flatMap Prod.snd).length ≤ 2 ^ 30
  ways : (usedWays (fun _ => usedByCars) items).length < invalidId
  arcs : (carArcs false items).length < 2 ^ 30
  turns : ∃ rs degree, relationData (decoderOf decodeRestrictions) items = some rs ∧
    (∀ v, (carArcs false items).countP (fun a => decide (a.tail = v)) ≤ degree) ∧
    rs.length * ((carArcs false items).length * degree + degree + 1) + 511 < 2 ^ 64
  known : ∀ a ∈ carArcs false items, ∀ x ∈ segmentNodes a.seg, ∃ p, position items x = some p ∧ OnEarth p
  lines : ∀ a ∈ carArcs false items, (segmentNodes a.seg).IsChain fun x y => 6 ≤ RK.geoDist (degrees items x) (degrees items y)
  lengths : ∀ a ∈ carArcs false items, exactLength items a.seg ≤ 99000
  routing : ∀ x, routingNode false (usedWays (fun _ => usedByCars) items) x = true →
    ∃ p, position items x = some p ∧ OnEarth p ∧ |(inDegrees p).1| ≤ 89.8
  apart : ∀ x y, routingNode false (usedWays (fun _ => usedByCars) items) x = true → routingNode false (usedWays (fun _ => usedByCars) items) y = true → x ≠ y →
    6 ≤ RK.geoDist (degrees items x) (degrees items y) ∧ RK.geoDist (degrees items x) (degrees items y) ≤ M - 5

theorem chain_le {items : List OsmItem} : ∀ (l : List Nat) (p : Nat) (S : ℝ), (p :: l).IsChain (fun x y => 6 ≤ RK.geoDist (degrees items x) (degrees items y)) → 0 ≤ S →
    ∀ {B : ℝ}, pathLength (· + ·) (fun p y => RK.geoDist (degrees items p) (degrees items y)) S p l ≤ B →
    (p :: l).IsChain (fun x y => 6 ≤ RK.geoDist (degrees items x) (degrees items y) ∧ RK.geoDist (degrees items x) (degrees items y) ≤ B)
  | [], p, S, _, _, B, _ => List.isChain_singleton _
  | y :: l, p, S, h, hS, B, hB => by
    rw [List.isChain_cons_cons] at h ⊢
    simp only [pathLength] at hB
    have hge := pathLength_ge (ex := fun p y => RK.geoDist (degrees items p) (degrees items y)) l y (S + RK.geoDist (degrees items p) (degrees items y))
      (h.2.imp fun a b h => by linarith)
    exact ⟨⟨h.1, by linarith⟩, chain_le l y _ h.2 (by linarith) hB⟩

/-- The lengths of the stretches of such a file. -/
theorem earth_length {lib : MathLib} (hlib : lib.Good) (contract : Bool) {coord : Int → ℝ} (hc : GoodCoord coord)
    (fits : TurnDirection → ℝ × ℝ → ℝ × ℝ → ℝ × ℝ → Bool) {inflate : List Byte → Option (List Byte)} {file : List Byte} {items : List OsmItem} {M : ℝ}
    (h : EarthFile inflate file items M) {a : MapArc} (ha : a ∈ carArcs false items) :
    ∃ d, (osmOps lib contract coord fits).toUnsigned (segmentLength (osmOps lib contract coord fits) items a.seg) = some d ∧ d ≤ 198841 ∧
      |(d : ℝ) - exactLength items a.seg| ≤ 1 + 6 * (a.seg.inner.length + 1) := by
  have hl := h.lengths a ha
  have hpi := Real.pi_gt_three
  obtain ⟨d, e, hd⟩ := segment_error hlib contract hc fits (h.known a ha)
    ((chain_le _ _ 0 (h.lines a ha) le_rfl hl).imp fun x y h => ⟨h.1, h.2.trans (by unfold RK.earthRadius; norm_num; linarith)⟩) (hl.trans (by norm_num))
  refine ⟨d, e, ?_, hd⟩
  have hge : 6 * ((a.seg.inner.length : ℝ) + 1) ≤ exactLength items a.seg := by
    have := pathLength_lower (a.seg.inner ++ [a.seg.last]) a.seg.first 0 (h.lines a ha)
    simp only [List.length_append, List.length_singleton, zero_add] at this
    push_cast at this
    exact this
  have := (abs_le.1 hd).2
  have : (d : ℝ) ≤ 198841 := by linarith
  exact_mod_cast this

theorem earth_carFile {lib : MathLib} (hlib : lib.Good) (contract : Bool) {coord : Int → ℝ} (hc : GoodCoord coord)
    (fits : TurnDirection → ℝ × ℝ → ℝ × ℝ → ℝ × ℝ → Bool) {inflate : List Byte → Option (List Byte)} {file : List Byte} {items : List OsmItem} {M : ℝ}
    (h : EarthFile inflate file items M) : CarFile (osmOps lib contract coord fits) inflate false file items where
  encoded := h.encoded
  reserved := h.reserved
  good := h.good
  unique := h.unique
  members := h.members
  nodes := h.nodes
  ways := h.ways
  lengths := fun a ha => by
    obtain ⟨d, e, hd, _⟩ := earth_length hlib contract hc fits h ha
    exact ⟨d, e, hd⟩
  arcs := h.arcs
  turns := h.turns

/-- **C89**, the times with floating point numbers (partial): the time for a stretch in milliseconds differs from the time for its exact length by at most
the time for 6 m for each line and 1 m, and 1 ms. -/
theorem C89_drive_times_partial {lib : MathLib} (hlib : lib.Good) (contract : Bool) {coord : Int → ℝ} (hc : GoodCoord coord)
    (fits : TurnDirection → ℝ × ℝ → ℝ × ℝ → ℝ × ℝ → Bool) {inflate : List Byte → Option (List Byte)} {file : List Byte} {items : List OsmItem} {M : ℝ}
    (h : EarthFile inflate file items M) {a : MapArc} (ha : a ∈ carArcs false items) :
    ∃ tags v t, WayOf items a tags ∧ waySpeed (lookup tags) = some v ∧ 0 < v ∧ DriveTime (osmOps lib contract coord fits) items a t ∧
      |(t : ℝ) - exactLength items a.seg * 3600 / v| ≤ (1 + 6 * (a.seg.inner.length + 1)) * 3600 / v + 1 := by
  obtain ⟨d, e, _, hd⟩ := earth_length hlib contract hc fits h ha
  obtain ⟨tags, htag⟩ := arc_way h.good ha
  obtain ⟨v, ev, hv⟩ := C46_speed_positive (lookup tags)
  refine ⟨tags, v, d * 3600 / v, htag, ev, hv.1, ⟨tags, v, d, htag, ev, e, rfl⟩, ?_⟩
  have hv0 : (0 : ℝ) < v := by exact_mod_cast hv.1
  have h1 : (((d * 3600 / v : ℕ) : ℝ)) ≤ (d : ℝ) * 3600 / v := by
    have := Nat.cast_div_le (α := ℝ) (m := d * 3600) (n := v)
    push_cast at this
    exact this
  have h2 : (d : ℝ) * 3600 / v < ((d * 3600 / v : ℕ) : ℝ) + 1 := by
    rw [div_lt_iff₀ hv0]
    have := Nat.lt_div_mul_add (a := d * 3600) hv.1
    have h3 : ((d * 3600 : ℕ) : ℝ) < ((d * 3600 / v * v + v : ℕ) : ℝ) := by exact_mod_cast this
    push_cast at h3
    linarith
  have h3 : |(d : ℝ) * 3600 / v - exactLength items a.seg * 3600 / v| ≤ (1 + 6 * (a.seg.inner.length + 1)) * 3600 / v := by
    rw [← sub_div, ← sub_mul, abs_div, abs_mul, abs_of_pos hv0, abs_of_pos (show (0 : ℝ) < 3600 by norm_num)]
    exact div_le_div_of_nonneg_right (mul_le_mul_of_nonneg_right hd (by norm_num)) hv0.le
  have h3 := abs_le.1 h3
  exact abs_le.2 ⟨by linarith, by linarith⟩

/-- `x` is nearly a nearest node to the position `p`, in terms of the exact positions of the nodes: the distance is at most the radius and that of every
other node, up to 73 m and 18.3 millionths of the size of the map. -/
def NearlyNearest (items : List OsmItem) (ids : List Nat) (M radius : ℝ) (p : ℝ × ℝ) (x : Nat) : Prop :=
  RK.geoDist p (degrees items x) ≤ radius + (4 + 0.0000001 * M) ∧
    ∀ z ∈ ids, RK.geoDist p (degrees items x) ≤ RK.geoDist p (degrees items z) + (73 + 0.0000183 * M)

/-- What the program prints for a pair of positions. -/
def NearAnswer (fl : FloatOps) (items : List OsmItem) (ids : List Nat) (M radius : ℝ) (p : (ℝ × ℝ) × (ℝ × ℝ)) : RouteAnswer → Prop
  | .noSource => ∀ z ∈ ids, radius ≤ RK.geoDist p.1 (degrees items z) + (70 + 0.0000182 * M)
  | .noTarget => (∃ z ∈ ids, NearlyNearest items ids M radius p.1 z) ∧ ∀ z ∈ ids, radius ≤ RK.geoDist p.2 (degrees items z) + (70 + 0.0000182 * M)
  | .route s t d nodes => ∃ x y, ids[s]? = some x ∧ ids[t]? = some y ∧ NearlyNearest items ids M radius p.1 x ∧ NearlyNearest items ids M radius p.2 y ∧
      FastestDrive (carArcs false items) (DriveTime fl items) ids x y d nodes

/-- A position of the input: away from the poles, and between 4 m and `M - 3` m from all nodes. -/
def FarFrom (items : List OsmItem) (ids : List Nat) (M : ℝ) (q : ℝ × ℝ) : Prop :=
  InRange q ∧ |q.1| ≤ 89.9 ∧ ∀ x ∈ ids, 4 ≤ RK.geoDist q (degrees items x) ∧ RK.geoDist q (degrees items x) ≤ M - 3

theorem near_node {items : List OsmItem} {ids : List Nat} {M radius : ℝ} {coords : Nat → ℝ × ℝ} (hlen : ids.length < invalidId)
    (hnear : ∀ x ∈ ids, RK.geoDist (coords x) (degrees items x) ≤ 2.17) {p : ℝ × ℝ} {i : Nat} {d : ℝ} (h1 : d ≤ radius)
    (h2 : ∀ q ∈ ids.map coords, d ≤ RK.geoDist p q + (67 + 0.0000182 * M))
    (h3 : (i = invalidId ∧ d = radius) ∨ ∃ q, (ids.map coords)[i]? = some q ∧ |d - RK.geoDist p q| ≤ 1.6 + 0.0000001 * M) :
    (i = invalidId ∧ ∀ z ∈ ids, radius ≤ RK.geoDist p (degrees items z) + (70 + 0.0000182 * M)) ∨
    (i ≠ invalidId ∧ ∃ x, ids[i]? = some x ∧ NearlyNearest items ids M radius p x) := by
  have hz : ∀ z ∈ ids, d ≤ RK.geoDist p (degrees items z) + (69.17 + 0.0000182 * M) := by
    intro z hz
    have e1 := h2 _ (List.mem_map_of_mem hz)
    have e2 := C51_metric.triangle p (degrees items z) (coords z)
    have e3 := hnear z hz
    rw [C51_metric.symm] at e3
    norm_num at e1 e3 ⊢
    linarith
  rcases h3 with ⟨rfl, rfl⟩ | ⟨q, hq, hd⟩
  · refine Or.inl ⟨rfl, fun z hz' => (hz z hz').trans ?_⟩
    norm_num
  · rw [List.getElem?_map, Option.map_eq_some_iff] at hq
    obtain ⟨x, hx, rfl⟩ := hq
    have hl := (List.getElem?_eq_some_iff.1 hx).1
    have hd := abs_le.1 hd
    have e2 := C51_metric.triangle p (coords x) (degrees items x)
    have e3 := hnear x (List.mem_of_getElem? hx)
    refine Or.inr ⟨by omega, x, hx, ?_, fun z hz' => ?_⟩
    · norm_num at hd e3 ⊢
      linarith
    · have := hz z hz'
      norm_num at hd e3 this ⊢
      linarith

theorem answerPairsF_ok {fl : FloatOps} {items : List OsmItem} {ids : List Nat} {M radius : ℝ} {o : DistOps (ℝ × ℝ) (Option ℝ)} {coords : Nat → ℝ × ℝ}
    (hlen : ids.length < invalidId) (hnear : ∀ x ∈ ids, RK.geoDist (coords x) (degrees items x) ≤ 2.17) {index : GeoIndex (ℝ × ℝ)}
    (hix : ∀ q, FarFrom items ids M q → ∃ i d, index.nearestF o q (some radius) = some ⟨i, some d⟩ ∧ d ≤ radius ∧
      (∀ p ∈ ids.map coords, d ≤ RK.geoDist q p + (67 + 0.0000182 * M)) ∧
      ((i = invalidId ∧ d = radius) ∨ ∃ p, (ids.map coords)[i]? = some p ∧ |d - RK.geoDist q p| ≤ 1.6 + 0.0000001 * M))
    {G : QGraph} (hGn : G.n = ids.length)
    (hroute : ∀ s t x y d as nodes, ids[s]? = some x → ids[t]? = some y → ShortestRoute G.arcs s t d as nodes →
      FastestDrive (carArcs false items) (DriveTime fl items) ids x y d nodes) :
    ∀ (input : List ((ℝ × ℝ) × (ℝ × ℝ))), (∀ p ∈ input, FarFrom items ids M p.1 ∧ FarFrom items ids M p.2) → ∀ {q : ChQuery} {S : QState}, QRep q S → S.graph = G →
      ∃ answers, answerPairsF o (some radius) index q input = some answers ∧ List.Forall₂ (NearAnswer fl items ids M radius) input answers
  | [], _, q, S, _, _ => ⟨[], rfl, .nil⟩
  | p :: l, hfar, q, S, hq, hS => by
    have hfar' : ∀ p ∈ l, FarFrom items ids M p.1 ∧ FarFrom items ids M p.2 := fun p hp => hfar p (List.mem_cons_of_mem _ hp)
    obtain ⟨i1, d1, e1, a1, b1, c1⟩ := hix p.1 (hfar p List.mem_cons_self).1
    obtain ⟨i2, d2, e2, a2, b2, c2⟩ := hix p.2 (hfar p List.mem_cons_self).2
    rcases near_node hlen hnear a1 b1 c1 with ⟨n1, m1⟩ | ⟨n1, x, hx, nx⟩
    · obtain ⟨answers, ea, ha⟩ := answerPairsF_ok hlen hnear hix hGn hroute l hfar' hq hS
      refine ⟨.noSource :: answers, ?_, .cons m1 ha⟩
      simp [answerPairsF, answerPairF, e1, n1, ea]
    · rcases near_node hlen hnear a2 b2 c2 with ⟨n2, m2⟩ | ⟨n2, y, hy, ny⟩
      · obtain ⟨answers, ea, ha⟩ := answerPairsF_ok hlen hnear hix hGn hroute l hfar' hq hS
        refine ⟨.noTarget :: answers, ?_, .cons ⟨⟨x, List.mem_of_getElem? hx, nx⟩, m2⟩ ha⟩
        simp [answerPairsF, answerPairF, e1, n1, e2, n2, ea]
      · subst hS
        obtain ⟨q0, q1, q2, q', S', d, as, nodes, f0, f1, f2, f3, f4, f5, hq', hS', hr⟩ := routeQuery_ok hq (s := i1) (t := i2)
          (by rw [hGn]; exact (List.getElem?_eq_some_iff.1 hx).1) (by rw [hGn]; exact (List.getElem?_eq_some_iff.1 hy).1)
        obtain ⟨answers, ea, ha⟩ := answerPairsF_ok hlen hnear hix hGn hroute l hfar' hq' hS'
        refine ⟨.route i1 i2 d nodes :: answers, ?_, .cons ⟨x, y, hx, hy, nx, ny, hroute _ _ _ _ _ _ _ hx hy hr⟩ ha⟩
        simp [answerPairsF, answerPairF, e1, n1, e2, n2, f0, f1, f2, f3, f4, f5, ea]

/-- **C89**, the example program of the documentation, everything with IEEE arithmetic (partial): given that the hierarchy is built and has light arcs (as in
C22), and that nodes and positions of the input are some metres apart (see C85 and C86 for what happens otherwise), the program answers every input, with a
fastest drive along the ways of the file between nodes that are nearly nearest. -/
theorem C89_example_program_partial {lib : MathLib} (hlib : lib.Good) {single : SingleLib} (hsingle : single.Good) (contract contract' : Bool) (f : Fused)
    {coord : Int → ℝ} (hc : GoodCoord coord) (fits : TurnDirection → ℝ × ℝ → ℝ × ℝ → ℝ × ℝ → Bool)
    {inflate : List Byte → Option (List Byte)} {file : List Byte} {items : List OsmItem} {M : ℝ} (h0 : 0 ≤ M) (hM : M ≤ 10000000) (h : EarthFile inflate file items M)
    (own own' : Bool) (k : Nat) (k' : Nat → Nat) {stdSort : SortFn} (hs : StdSort stdSort) (junk : Nat → Word) {radius : ℝ} (hr : 0 ≤ radius)
    {nth : Nat → Nat → List (PointData (ℝ × ℝ) (Option ℝ)) → Nat → List (PointData (ℝ × ℝ) (Option ℝ))}
    (hn : NthElementOkF (geoOps lib contract' (buildDist single f)).lt nth) :
    ∃ g ids tail, simpleCar (osmOps lib contract coord fits) false inflate own own' k k' stdSort junk false file = .ok g ∧ invertInverseVector g.firstOut = some tail ∧
      g.firstOut.length = ids.length + 1 ∧ RoutingNodes false items ids ∧
      ∀ (asserts : Bool) (junkF junkB : Nat → Word) (ch : Ch),
        Ch.build asserts ids.length tail g.head g.travelTime 500 junkF junkB = some ch →
        (∀ w ∈ ch.forward.weight, w ≤ lightArc) → (∀ w ∈ ch.backward.weight, w ≤ lightArc) →
        ∀ (input : List ((ℝ × ℝ) × (ℝ × ℝ))), (∀ p ∈ input, FarFrom items ids M p.1 ∧ FarFrom items ids M p.2) →
          ∃ answers, readmeMainF (osmOps lib contract coord fits) (geoOps lib contract' (buildDist single f)) false asserts inflate own own' k k' stdSort junk junkF junkB
              (some radius) nth file input = .ok answers ∧
            List.Forall₂ (NearAnswer (osmOps lib contract coord fits) items ids M radius) input answers := by
  obtain ⟨g, ids, tail, e, hN⟩ := car_network (earth_carFile hlib contract hc fits h) own own' k k' hs junk
  refine ⟨g, ids, tail, e, hN.tails, hN.count, hN.routing, ?_⟩
  intro asserts junkF junkB ch hb l1 l2 input hfar
  have hu : u32 = 4294967296 := rfl
  have hv : invalidId = 4294967295 := rfl
  have hnodes : ids.length ≤ 2 ^ 30 := hN.input.nodes
  let coords : Nat → ℝ × ℝ := fun x => coordinates (osmOps lib contract coord fits) items x
  have hzip : g.latitude.zip g.longitude = ids.map coords := by
    rw [hN.latitude, hN.longitude, List.zip_map']
    rfl
  have hpos : ∀ x ∈ ids, InRange (coords x) ∧ |(coords x).1| ≤ 89.9 ∧ RK.geoDist (coords x) (degrees items x) ≤ 2.17 := by
    intro x hx
    obtain ⟨p, ep, op, hp⟩ := h.routing x ((hN.routing.2 x).1 hx)
    have hcx : coords x = (coord p.1, coord p.2) := by simp only [coords, coordinates, ep]; rfl
    have hdx : degrees items x = inDegrees p := by simp only [degrees, ep]
    have r1 := (coord_near hc op).inRange
    have r2 := near_dist (coord_near hc op)
    rw [hcx, hdx]
    refine ⟨r1, ?_, r2⟩
    have h1 := (hc.latitude _ op.1).2
    have h2 := abs_sub_abs_le_abs_sub (coord p.1) (inDegrees p).1
    have h3 : |coord p.1 - (inDegrees p).1| ≤ 0.000007 := h1
    norm_num at h3 hp ⊢
    linarith
  have hapart : (ids.map coords).Pairwise (ApartOnMap M) := by
    rw [List.pairwise_map]
    refine hN.routing.1.imp_of_mem fun {x y} hx hy hxy => ?_
    obtain ⟨a1, a2, a3⟩ := hpos x hx
    obtain ⟨b1, b2, b3⟩ := hpos y hy
    obtain ⟨c1, c2⟩ := h.apart x y ((hN.routing.2 x).1 hx) ((hN.routing.2 y).1 hy) (Nat.ne_of_lt hxy)
    have t1 := C51_metric.triangle (degrees items x) (coords x) (degrees items y)
    have t2 := C51_metric.triangle (coords x) (coords y) (degrees items y)
    have t3 := C51_metric.triangle (coords x) (degrees items x) (coords y)
    have t4 := C51_metric.triangle (degrees items x) (degrees items y) (coords y)
    have s1 := C51_metric.symm (degrees items x) (coords x)
    have s2 := C51_metric.symm (degrees items y) (coords y)
    norm_num at a3 b3
    exact ⟨⟨a1, b1, by norm_num; linarith, by linarith⟩, a2, b2⟩
  obtain ⟨index, ei, hix⟩ := C85_nearest_node_partial hlib hsingle contract' f h0 hM hn (ids.map coords) hapart
  have hbf : BuiltFor ch ⟨ids.length, listArcs tail g.head g.travelTime⟩ :=
    ⟨tail, g.head, g.travelTime, hN.input, asserts, 500, junkF, junkB, Or.inl hb, l1, l2⟩
  obtain ⟨answers, ea, ha⟩ := answerPairsF_ok (fl := osmOps lib contract coord fits) (items := items) (ids := ids) (coords := coords) (by omega)
    (fun x hx => (hpos x hx).2.2) (fun q hq => hix q radius (by
      intro p hp
      obtain ⟨x, hx, rfl⟩ := List.mem_map.1 hp
      obtain ⟨a1, a2, a3⟩ := hpos x hx
      obtain ⟨c1, c2⟩ := hq.2.2 x hx
      have t1 := C51_metric.triangle q (coords x) (degrees items x)
      have t2 := C51_metric.triangle q (degrees items x) (coords x)
      have s1 := C51_metric.symm (degrees items x) (coords x)
      norm_num at a3
      exact ⟨⟨hq.1, a1, by norm_num; linarith, by linarith⟩, hq.2.1, a2⟩) hr) (G := ⟨ids.length, listArcs tail g.head g.travelTime⟩) rfl
    (fun s t x y d as nodes hx hy hr => fastest hN.arcs (hN.routing.1.imp Nat.ne_of_lt) hx hy hr) input hfar (chQuery_rep_new hbf.hierOk) rfl
  refine ⟨answers, ?_, ha⟩
  unfold readmeMainF
  rw [e]
  simp only [Res.ok_bind, hN.tails, Res.ofOption_some, hN.count, Nat.add_sub_cancel, Nat.mod_eq_of_lt (show ids.length < u32 by omega), hb]
  have hl : g.latitude.length = g.longitude.length := by rw [hN.latitude, hN.longitude, List.length_map, List.length_map]
  simp only [check, hl, decide_true, if_true, Res.ofOption_some, Res.ok_bind]
  erw [hzip, ei]
  exact congrArg Res.ofOption ea

/-! ### An example -/

def laneBlock : List Byte :=
  smallMessage [.bytes 1 (smallMessage (roadStrings.map (Field.bytes 1))), .bytes 2 (smallMessage [.bytes 2 pairDense, .bytes 3 pairWay2])]

/-- A way between two nodes, 41.75 and 41.85 degrees north, and another node. -/
def laneItems : List OsmItem :=
  [.node 3 41750000000 12500000000 [], .node 5 41750000000 12500000000 [], .node 6 41850000000 12500000000 [], .way 8 [5, 6] roadTags]

theorem laneBlock_ok : EncodesBlock ⟨roadStrings, 100, 0, 0⟩ false laneBlock laneItems :=
  ⟨_, _, [laneItems], smallMessage_ok (by decide +kernel), by decide +kernel, smallMessage_ok (by decide), by decide, by decide, Or.inl ⟨by decide +kernel, rfl⟩,
    by decide, by decide, by decide, Or.inl ⟨by decide +kernel, by decide⟩, Or.inl ⟨by decide +kernel, by decide⟩,
    .cons ⟨_, smallMessage_ok (fs := [.bytes 2 pairDense, .bytes 3 pairWay2]) (by decide +kernel),
      GroupIs.dense (h := ⟨roadStrings, 100, 0, 0⟩) (nodes := pairNodes) (items := [.way 8 [5, 6] roadTags]) pairDense_ok (.way pairWay2_ok .nil)⟩ .nil, rfl⟩

def laneFile : List Byte :=
  let hb := smallMessage [.varint 2 exHeader.length, .bytes 1 exHeader]
  let hh := smallMessage [.bytes 1 (text "OSMHeader"), .varint 3 hb.length]
  let db := smallMessage [.varint 2 laneBlock.length, .bytes 1 laneBlock]
  let dh := smallMessage [.bytes 1 (text "OSMData"), .varint 3 db.length]
  (bigEndian hh.length ++ hh ++ hb) ++ ((bigEndian dh.length ++ dh ++ db) ++ [])

theorem laneFile_ok : EncodesFile (fun _ => none) [text "DenseNodes", text "HistoricalInformation"] [text "Sort.Type_then_ID"] laneFile laneItems := by
  refine ⟨_, _, _, _, _, rfl, ⟨_, _, rfl, smallMessage_ok (by decide), by decide, by decide, by decide, by decide⟩,
    ⟨_, smallMessage_ok (by decide), by decide, by decide, by decide, by decide, Or.inl ⟨by decide, by decide⟩⟩,
    smallMessage_ok (fs := [.bytes 4 (text "DenseNodes"), .bytes 4 (text "HistoricalInformation"), .bytes 5 (text "Sort.Type_then_ID")]) (by decide), by decide, by decide, ?_⟩
  exact .data (others := []) ⟨_, _, rfl, smallMessage_ok (by decide +kernel), by decide +kernel, by decide +kernel, by decide +kernel, by decide +kernel⟩
    ⟨_, smallMessage_ok (by decide +kernel), by decide +kernel, by decide +kernel, by decide +kernel, by decide +kernel, Or.inl ⟨by decide +kernel, by decide +kernel⟩⟩ rfl rfl laneBlock_ok .nil

theorem laneArcs : carArcs false laneItems = [⟨8, ⟨5, [], 6⟩, false⟩, ⟨8, ⟨5, [], 6⟩, true⟩] := by decide +kernel

theorem laneRouting (x : Nat) : routingNode false (usedWays (fun _ => usedByCars) laneItems) x = true ↔ x = 5 ∨ x = 6 := by
  have hu : usedWays (fun _ => usedByCars) laneItems = [(8, [5, 6])] := by decide +kernel
  rw [hu]
  unfold routingNode
  simp only [Bool.false_eq_true, if_false, decide_eq_true_eq]
  constructor
  · rintro (h | ⟨w, hw, h⟩ | h)
    · simp at h
    · simp only [List.mem_singleton] at hw
      subst hw
      simp at h
      omega
    · exfalso
      have : ([5, 6] : List Int).count (x : Int) ≤ 1 := List.nodup_iff_count_le_one.1 (by decide) _
      simp only [List.flatMap_cons, List.flatMap_nil, List.append_nil] at h
      omega
  · rintro (rfl | rfl) <;> decide

/-- The distance of two positions on the same meridian. -/
theorem meridian_dist (a b l : ℝ) (h : |a - b| ≤ 90) : RK.geoDist (a, l) (b, l) = |a - b| * RK.piDiv180 * RK.earthRadius := by
  have hp := piDiv180_pos
  simp only [RK.geoDist, RK.geoCos, sub_self, zero_mul, Real.cos_zero]
  have ht := Real.arccos_cos (x := |a - b| * RK.piDiv180) (by positivity) (by
    have := Real.pi_gt_three
    have h1 : |a - b| * RK.piDiv180 ≤ 90 * RK.piDiv180 := mul_le_mul_of_nonneg_right h hp.le
    have h2 : 90 * RK.piDiv180 ≤ 3 := by unfold RK.piDiv180; norm_num
    linarith)
  have hcos : Real.cos ((a - b) * RK.piDiv180) = Real.cos (|a - b| * RK.piDiv180) := by
    rw [← Real.cos_abs ((a - b) * RK.piDiv180), abs_mul, abs_of_pos hp]
  rw [hcos]
  generalize Real.cos ((a + b) * RK.piDiv180) = c
  generalize Real.cos (|a - b| * RK.piDiv180) = e at ht ⊢
  rw [show ((e + c) * 1 + e - c) * 0.5 = e by ring, ht]

theorem lane5 : degrees laneItems 5 = (41.75, 12.5) := by
  have : position laneItems 5 = some (41750000000, 12500000000) := by decide
  simp only [degrees, this, inDegrees]
  norm_num

theorem lane6 : degrees laneItems 6 = (41.85, 12.5) := by
  have : position laneItems 6 = some (41850000000, 12500000000) := by decide
  simp only [degrees, this, inDegrees]
  norm_num

theorem laneDist : 11000 ≤ RK.geoDist (degrees laneItems 5) (degrees laneItems 6) ∧ RK.geoDist (degrees laneItems 5) (degrees laneItems 6) ≤ 11200 := by
  rw [lane5, lane6, meridian_dist _ _ _ (by norm_num [abs_le])]
  norm_num [RK.piDiv180, RK.earthRadius, abs_of_neg]

theorem laneEarth : EarthFile (fun _ => none) laneFile laneItems 20000 where
  encoded := ⟨_, _, laneFile_ok⟩
  reserved := by
    intro i hi
    simp only [laneItems, List.mem_cons, List.not_mem_nil, or_false] at hi
    rcases hi with rfl | rfl | rfl | rfl <;> simp [OsmItem.Reserved]
  good := by
    intro i hi
    simp only [laneItems, List.mem_cons, List.not_mem_nil, or_false] at hi
    rcases hi with rfl | rfl | rfl | rfl <;> simp [OsmItem.GoodIds]
  unique := by
    intro id n n' t t' h1 h2
    simp [laneItems] at h1 h2
    exact ⟨by rw [h1.2.1, h2.2.1], by rw [h1.2.2, h2.2.2]⟩
  members := by
    intro id members tags h
    simp [laneItems] at h
  nodes := by decide +kernel
  ways := by decide +kernel
  arcs := by rw [laneArcs]; decide
  turns := ⟨[], 2, by decide +kernel, by rw [laneArcs]; exact fun v => List.countP_le_length, by decide⟩
  known := by
    rw [laneArcs]
    intro a ha x hx
    have hs : a.seg = ⟨5, [], 6⟩ := by
      simp only [List.mem_cons, List.not_mem_nil, or_false] at ha
      rcases ha with rfl | rfl <;> rfl
    rw [hs] at hx
    simp only [segmentNodes, List.nil_append, List.mem_cons, List.not_mem_nil, or_false] at hx
    rcases hx with rfl | rfl
    · exact ⟨(41750000000, 12500000000), by decide, by unfold OnEarth; decide⟩
    · exact ⟨(41850000000, 12500000000), by decide, by unfold OnEarth; decide⟩
  lines := by
    rw [laneArcs]
    intro a ha
    have hs : a.seg = ⟨5, [], 6⟩ := by
      simp only [List.mem_cons, List.not_mem_nil, or_false] at ha
      rcases ha with rfl | rfl <;> rfl
    rw [hs]
    simp only [segmentNodes, List.nil_append, List.isChain_cons_cons, List.isChain_singleton, and_true]
    linarith [laneDist.1]
  lengths := by
    rw [laneArcs]
    intro a ha
    have hs : a.seg = ⟨5, [], 6⟩ := by
      simp only [List.mem_cons, List.not_mem_nil, or_false] at ha
      rcases ha with rfl | rfl <;> rfl
    rw [hs]
    simp only [exactLength, List.nil_append, pathLength]
    linarith [laneDist.2]
  routing := by
    intro x hx
    rcases (laneRouting x).1 hx with rfl | rfl
    · exact ⟨(41750000000, 12500000000), by decide, by unfold OnEarth; decide, by norm_num [inDegrees, abs_le]⟩
    · exact ⟨(41850000000, 12500000000), by decide, by unfold OnEarth; decide, by norm_num [inDegrees, abs_le]⟩
  apart := by
    intro x y hx hy hne
    have h := laneDist
    rcases (laneRouting x).1 hx with rfl | rfl <;> rcases (laneRouting y).1 hy with rfl | rfl
    · exact absurd rfl hne
    · exact ⟨by linarith, by linarith⟩
    · rw [C51_metric.symm]
      exact ⟨by linarith, by linarith⟩
    · exact absurd rfl hne

theorem laneTime (contract : Bool) (fits : TurnDirection → ℝ × ℝ → ℝ × ℝ → ℝ × ℝ → Bool) {a : MapArc} (ha : a ∈ carArcs false laneItems) {t : Nat}
    (h : DriveTime (osmOps roundedLib contract osmCoord fits) laneItems a t) : 0 < t ∧ t ≤ 28633104 := by
  obtain ⟨tags, v, d, ⟨id, nodes, hm, _⟩, h2, h3, rfl⟩ := h
  simp only [laneItems, List.mem_cons, List.not_mem_nil, or_false, reduceCtorEq, false_or, OsmItem.way.injEq] at hm
  obtain ⟨_, _, rfl⟩ := hm
  have hv : waySpeed (lookup roadTags) = some 25 := by decide +kernel
  rw [hv] at h2
  cases h2
  obtain ⟨d', e, hd, hn⟩ := earth_length roundedLib_good contract osmCoord_good fits laneEarth ha
  rw [h3] at e
  cases e
  have hL : exactLength laneItems a.seg = 0 + RK.geoDist (degrees laneItems 5) (degrees laneItems 6) ∧ a.seg.inner.length = 0 := by
    rw [laneArcs] at ha
    simp only [List.mem_cons, List.not_mem_nil, or_false] at ha
    rcases ha with rfl | rfl <;> exact ⟨rfl, rfl⟩
  rw [hL.1, hL.2] at hn
  have hn := abs_le.1 hn
  have hd' : (1000 : ℝ) ≤ d := by
    have := laneDist.1
    norm_num at hn
    linarith
  have hd' : 1000 ≤ d := by exact_mod_cast hd'
  omega

/-- A position 0.001 degrees north of the lane, and one 0.001 degrees south of it. -/
noncomputable def lanePair : (ℝ × ℝ) × (ℝ × ℝ) := ((41.851, 12.5), (41.749, 12.5))

/-- The hypotheses are satisfiable: the program is asked for the way from a position north of the lane to one south of it. -/
example (contract contract' : Bool) (f : Fused) (fits : TurnDirection → ℝ × ℝ → ℝ × ℝ → ℝ × ℝ → Bool) (junk junkF junkB : Nat → Word) : ∃ s t d nodes,
    readmeMainF (osmOps roundedLib contract osmCoord fits) (geoOps roundedLib contract' (buildDist roundedSingle f)) false true (fun _ => none) false true 0 (fun _ => 0)
      (fun _ less l => l.mergeSort fun a b => !less b a) junk junkF junkB (some 1000) sortNthF laneFile [lanePair]
      = .ok [.route s t d nodes] := by
  obtain ⟨g, ids, tail, e, hN⟩ := car_network (earth_carFile roundedLib_good contract osmCoord_good fits laneEarth) false true 0 (fun _ => 0) exStdSort junk
  obtain ⟨g', ids', tail', e', ht', hc', hR', h⟩ := C89_example_program_partial roundedLib_good roundedSingle_good contract contract' f osmCoord_good fits
    (by norm_num) (by norm_num) laneEarth false true 0 (fun _ => 0) exStdSort junk (radius := 1000) (by norm_num) (sortNthF_ok _ _ _)
  rw [e] at e'
  cases e'
  rw [hN.tails] at ht'
  cases ht'
  have hsame : ∀ l, RoutingNodes false laneItems l → l = [5, 6] := by
    intro l h1
    refine List.Perm.eq_of_pairwise (le := (· < ·)) (fun a b _ _ x y => by omega) h1.1 (by decide) ?_
    exact (List.perm_ext_iff_of_nodup (h1.1.imp Nat.ne_of_lt) (by decide)).2 (fun x => by rw [h1.2, laneRouting]; simp)
  obtain rfl := hsame _ hR'
  have hids := hsame _ hN.routing
  subst hids
  have hdrive : ∀ x p y l, Drive (carArcs false laneItems) (DriveTime (osmOps roundedLib contract osmCoord fits) laneItems) x p y l → l = 0 → x = y := by
    intro x p y l h
    cases h with
    | stay => simp
    | along ha ht _ =>
      intro h0
      have := (laneTime contract fits ha ht).1
      omega
  obtain ⟨ch, hb, l1, l2⟩ := small_hierarchy hN (by decide) (fun x y p _ hp _ => hdrive x p y _ hp rfl) 28633104 (fun a ha t ht => (laneTime contract fits ha ht).2)
    (by decide) true (fun _ => by rw [laneArcs]; simp) junkF junkB
  have hm : ∀ a b : ℝ, |a - b| ≤ 90 → RK.geoDist (a, 12.5) (b, 12.5) = |a - b| * (RK.piDiv180 * RK.earthRadius) :=
    fun a b h => by rw [meridian_dist _ _ _ h, mul_assoc]
  have hk : 111000 ≤ RK.piDiv180 * RK.earthRadius ∧ RK.piDiv180 * RK.earthRadius ≤ 111300 := by
    norm_num [RK.piDiv180, RK.earthRadius]
  generalize RK.piDiv180 * RK.earthRadius = K at hk hm
  have d1 : RK.geoDist (41.851, 12.5) (degrees laneItems 5) = 0.101 * K := by
    rw [lane5, hm _ _ (by norm_num [abs_le])]; norm_num
  have d2 : RK.geoDist (41.851, 12.5) (degrees laneItems 6) = 0.001 * K := by
    rw [lane6, hm _ _ (by norm_num [abs_le])]; norm_num
  have d3 : RK.geoDist (41.749, 12.5) (degrees laneItems 5) = 0.001 * K := by
    rw [lane5, hm _ _ (by norm_num [abs_le])]; norm_num [abs_of_neg]
  have d4 : RK.geoDist (41.749, 12.5) (degrees laneItems 6) = 0.101 * K := by
    rw [lane6, hm _ _ (by norm_num [abs_le])]; norm_num [abs_of_neg]
  norm_num at d1 d2 d3 d4
  obtain ⟨answers, ea, ha⟩ := h true junkF junkB ch hb l1 l2 [lanePair] (by
    intro p hp
    simp only [List.mem_singleton] at hp
    subst hp
    unfold lanePair
    refine ⟨⟨⟨by norm_num [abs_le], by norm_num [abs_le]⟩, by norm_num [abs_le], fun x hx => ?_⟩,
      ⟨by norm_num [abs_le], by norm_num [abs_le]⟩, by norm_num [abs_le], fun x hx => ?_⟩
    · simp only [List.mem_cons, List.not_mem_nil, or_false] at hx
      rcases hx with rfl | rfl
      · norm_num; rw [d1]; constructor <;> linarith
      · norm_num; rw [d2]; constructor <;> linarith
    · simp only [List.mem_cons, List.not_mem_nil, or_false] at hx
      rcases hx with rfl | rfl
      · norm_num; rw [d3]; constructor <;> linarith
      · norm_num; rw [d4]; constructor <;> linarith)
  cases ha with
  | @cons _ a _ l h1 h2 =>
  cases h2
  cases a with
  | noSource =>
    have := h1 6 (by simp)
    unfold lanePair at this
    norm_num at this
    rw [d2] at this
    linarith
  | noTarget =>
    have := h1.2 5 (by simp)
    unfold lanePair at this
    norm_num at this
    rw [d3] at this
    linarith
  | route s t d nodes => exact ⟨s, t, d, nodes, ea⟩

end RK.Props
