import Verif.Proof.OsmFloat
import Verif.Proof.OsmUndefined
import Verif.Props.GeoFloat
import Verif.Props.OsmGraph
import Verif.Props.OsmSimple
import Verif.Props.ArcTools
/-! # C86: lengths of the arcs of an OpenStreetMap file with floating point numbers -/
namespace RK.Props
open RK RK.Osm _root_.Spec BitVector

variable {σ : Type}

/-- C60, the exception: if the length of an arc cannot be converted to `unsigned`, then `load_osm_routing_graph_from_pbf` has undefined behaviour. -/
theorem C60_length_undefined {fl : FloatOps} {inflate : List Byte → Option (List Byte)} {required optional : List Str} {file : List Byte} {items : List OsmItem}
    (h : EncodesFile inflate required optional file items) (hid : ∀ i ∈ items, ¬ i.Reserved) (hg : ∀ i ∈ items, i.GoodIds)
    {m : IdMapping} (hm : MappingFits m items) {debug : Bool} (hd : debug = true → m.modelling.size = m.routing.size)
    (own assumeOrdered : Bool) (hord : assumeOrdered = true → items.Pairwise fun i j => kind i ≤ kind j) (k : Nat → Nat)
    (stdSort : SortFn) (junk : Nat → Word) {cb : WayCallback σ} {decoder : Option RestrictionDecoder} {geo : Geometry}
    {u u' : σ} {arcs : List MapArc} (hA : graphArcs (On m.ways) (On m.routing) (onesBelow m.ways) (callbackOf cb) u items = some (u', arcs))
    (hu : ∃ a ∈ arcs, fl.toUnsigned (segmentLength fl items a.seg) = none) :
    loadGraph fl debug inflate own k stdSort junk m cb u decoder assumeOrdered geo file = .ub := by
  obtain ⟨⟨Bm, rm⟩, ⟨Br, rr⟩, ⟨Bw, rw'⟩⟩ := hm.valid
  obtain ⟨mp, emp, hE⟩ := env_ok (fl := fl) hm (wantedGeometry decoder geo) rm rr rw'
  have hf : ∀ id nodes tags, OsmItem.way id nodes tags ∈ items → at' Bw id.toNat = true → WayFits (at' Bm) (at' Br) nodes := by
    intro id nodes tags hi hw
    rw [← onF rw'] at hw
    have := hm.ways id nodes tags hi hw
    rwa [onF rm, onF rr] at this
  rw [onF rw', onF rr, onesF rw'] at hA
  have e1 := scan_none h hid hg own assumeOrdered hord k hE rfl (decoder := decoder) hf hA hu
  unfold loadGraph
  rw [assert_ok hm hd, emp]
  simp only [Res.ofOption_some, Res.ok_bind]
  have e1' : (orderedRead inflate own ⟨true, true, decoder.isSome⟩ assumeOrdered k file).run (Scan.start mp u)
    (scanEvent (wantedGeometry decoder geo) mp cb decoder) = .ub := e1
  rw [e1']
  rfl

end RK.Props

namespace RK.Props
open RK RK.Osm _root_.Spec Ieee

variable {σ : Type}

/-- The position of a node in degrees; zero if it is not in the file. -/
noncomputable def degrees (items : List OsmItem) (x : Nat) : ℝ × ℝ :=
  match position items x with
  | some p => inDegrees p
  | none => (0, 0)

/-- The exact length of a segment in meters: the great circle distances of consecutive nodes are added up. -/
noncomputable def exactLength (items : List OsmItem) (s : Segment) : ℝ :=
  pathLength (· + ·) (fun p y => RK.geoDist (degrees items p) (degrees items y)) 0 s.first (s.inner ++ [s.last])

/-- All nodes of a segment in their order. -/
def segmentNodes (s : Segment) : List Nat := s.first :: (s.inner ++ [s.last])

/-- The length of a segment computed with rounding, for nodes with coordinates close to their positions. -/
theorem segment_error_at {m : MathLib} (hm : m.Good) (contract : Bool) (coord : Int → ℝ)
    (fits : TurnDirection → ℝ × ℝ → ℝ × ℝ → ℝ × ℝ → Bool) {items : List OsmItem} {s : Segment} {pos : Nat → ℝ × ℝ}
    (hp : ∀ x ∈ segmentNodes s, ∃ p, position items x = some p ∧ NearPos (pos x) p)
    (hd : (segmentNodes s).IsChain fun x y => 6 ≤ RK.geoDist (degrees items x) (degrees items y) ∧
      RK.geoDist (degrees items x) (degrees items y) ≤ Real.pi * RK.earthRadius - 6)
    (hl : exactLength items s ≤ 2000000000) :
    ∃ d, (osmOps m contract coord fits).toUnsigned (segmentLengthAt (osmOps m contract coord fits) pos s) = some d ∧
      |(d : ℝ) - exactLength items s| ≤ 1 + 6 * (s.inner.length + 1) := by
  have hline : ∀ x ∈ segmentNodes s, ∀ y ∈ segmentNodes s, 6 ≤ RK.geoDist (degrees items x) (degrees items y) →
      RK.geoDist (degrees items x) (degrees items y) ≤ Real.pi * RK.earthRadius - 6 →
      ∃ d, Ieee.geoDist m contract (pos y) (pos x) = some d ∧
        |d - RK.geoDist (degrees items x) (degrees items y)| ≤ 5.9 := by
    intro x hx y hy h1 h2
    obtain ⟨p, ep, op⟩ := hp x hx
    obtain ⟨q, eq, oq⟩ := hp y hy
    have := line_error hm contract oq op
    simp only [degrees, ep, eq] at h1 h2 ⊢
    rw [C51_metric.symm] at h1 h2
    rw [C51_metric.symm (inDegrees p)]
    cases e : Ieee.geoDist m contract (pos y) (pos x) with
    | some d => rw [e] at this; exact ⟨d, rfl, this⟩
    | none =>
      rw [e] at this
      rcases this with h | h
      · norm_num at h; linarith
      · norm_num at h; linarith
  have hchain : (segmentNodes s).IsChain fun x y => 6 ≤ RK.geoDist (degrees items x) (degrees items y) ∧
      ∃ d, Ieee.geoDist m contract (pos y) (pos x) = some d ∧
        |d - RK.geoDist (degrees items x) (degrees items y)| ≤ 5.9 := by
    rw [List.isChain_iff_getElem] at hd ⊢
    intro i hi
    have := hd i hi
    exact ⟨this.1, hline _ (List.getElem_mem _) _ (List.getElem_mem _) this.1 this.2⟩
  obtain ⟨D, e, hD⟩ := path_error _ _ 0 0 0 hchain (by simp) (by simp) hl
  have hge : 6 * ((0 + (s.inner ++ [s.last]).length : ℕ) : ℝ) ≤ exactLength items s := by
    have := pathLength_lower (s.inner ++ [s.last]) s.first 0 (hd.imp fun x y h => h.1)
    rw [zero_add] at this ⊢
    exact this
  change |D - exactLength items s| ≤ _ at hD
  have hD' := abs_le.1 hD
  have hD0 : 0 ≤ D := by linarith
  have hD1 : D < 4294967296 := by linarith
  refine ⟨⌊D⌋.toNat, ?_, ?_⟩
  · have e' : segmentLengthAt (osmOps m contract coord fits) pos s = some D := e
    rw [e']
    exact if_pos ⟨by linarith, hD1⟩
  · have h0 : 0 ≤ ⌊D⌋ := Int.floor_nonneg.2 hD0
    have h1 : ((⌊D⌋.toNat : ℕ) : ℝ) = (⌊D⌋ : ℝ) := by
      have : ((⌊D⌋.toNat : ℕ) : ℤ) = ⌊D⌋ := Int.toNat_of_nonneg h0
      exact_mod_cast this
    rw [h1]
    have h2 := Int.floor_le D
    have h3 := Int.lt_floor_add_one D
    simp only [zero_add, List.length_append, List.length_singleton] at hD'
    push_cast at hD'
    exact abs_le.2 ⟨by linarith, by linarith⟩

/-- The length of a segment computed with rounding. -/
theorem segment_error {m : MathLib} (hm : m.Good) (contract : Bool) {coord : Int → ℝ} (hc : GoodCoord coord)
    (fits : TurnDirection → ℝ × ℝ → ℝ × ℝ → ℝ × ℝ → Bool) {items : List OsmItem} {s : Segment}
    (hp : ∀ x ∈ segmentNodes s, ∃ p, position items x = some p ∧ OnEarth p)
    (hd : (segmentNodes s).IsChain fun x y => 6 ≤ RK.geoDist (degrees items x) (degrees items y) ∧
      RK.geoDist (degrees items x) (degrees items y) ≤ Real.pi * RK.earthRadius - 6)
    (hl : exactLength items s ≤ 2000000000) :
    ∃ d, (osmOps m contract coord fits).toUnsigned (segmentLength (osmOps m contract coord fits) items s) = some d ∧
      |(d : ℝ) - exactLength items s| ≤ 1 + 6 * (s.inner.length + 1) := by
  refine segment_error_at hm contract coord fits (fun x hx => ?_) hd hl
  obtain ⟨p, ep, op⟩ := hp x hx
  refine ⟨p, ep, ?_⟩
  simp only [coordinates, ep]
  exact coord_near hc op

/-- **C86**, lengths of arcs (partial): consecutive nodes of each arc are at least 6 m from each other (and from being antipodes), and no arc is longer than
two million kilometers. Then the graph is loaded, and the length of each arc in whole meters differs from the exact length of its way by at most
6 m for each line, and 1 m. Missing: arcs with consecutive nodes that are closer, see `C86_same_position_violated`. -/
theorem C86_arc_lengths_partial {lib : MathLib} (hlib : lib.Good) (contract : Bool) {coord : Int → ℝ} (hc : GoodCoord coord)
    (fits : TurnDirection → ℝ × ℝ → ℝ × ℝ → ℝ × ℝ → Bool)
    {inflate : List Byte → Option (List Byte)} {required optional : List Str} {file : List Byte} {items : List OsmItem}
    (h : EncodesFile inflate required optional file items) (hid : ∀ i ∈ items, ¬ i.Reserved) (hg : ∀ i ∈ items, i.GoodIds)
    {m : IdMapping} (hm : MappingFits m items) {debug : Bool} (hd : debug = true → m.modelling.size = m.routing.size)
    (own assumeOrdered : Bool) (hord : assumeOrdered = true → items.Pairwise fun i j => kind i ≤ kind j) (k : Nat → Nat)
    (stdSort : SortFn) (junk : Nat → Word) {cb : WayCallback σ} {geo : Geometry}
    {u u' : σ} {arcs : List MapArc} (hA : graphArcs (On m.ways) (On m.routing) (onesBelow m.ways) (callbackOf cb) u items = some (u', arcs))
    (hp : ∀ a ∈ arcs, ∀ x ∈ segmentNodes a.seg, ∃ p, position items x = some p ∧ OnEarth p)
    (hs : ∀ a ∈ arcs, (segmentNodes a.seg).IsChain fun x y => 6 ≤ RK.geoDist (degrees items x) (degrees items y) ∧
      RK.geoDist (degrees items x) (degrees items y) ≤ Real.pi * RK.earthRadius - 6)
    (hl : ∀ a ∈ arcs, exactLength items a.seg ≤ 2000000000)
    (hb : (arcs.flatMap (storedNodes geo)).length < 2 ^ 31) :
    ∃ g arcs', loadGraph (osmOps lib contract coord fits) debug inflate own k stdSort junk m cb u none assumeOrdered geo file = .ok (g, u') ∧
      arcs'.Perm arcs ∧ SortedArcsOf m arcs arcs' ∧ Shows items m geo arcs' g ∧
      List.Forall₂ (fun a (d : Nat) => |(d : ℝ) - exactLength items a.seg| ≤ 1 + 6 * (a.seg.inner.length + 1)) arcs' g.geoDistance := by
  have key : ∀ a ∈ arcs, _ := fun a ha => segment_error hlib contract hc fits (hp a ha) (hs a ha) (hl a ha)
  obtain ⟨g, arcs', e, h1, h2, h3, _⟩ := C60_routing_graph h hid hg hm hd own assumeOrdered hord k stdSort junk (geo := geo) hA
    (fun a ha => by obtain ⟨d, hd, _⟩ := key a ha; rw [hd]; rfl) hb
  refine ⟨g, arcs', e, h1, h2, h3, ?_⟩
  have hdist := h3.distance
  rw [List.forall₂_iff_get] at hdist ⊢
  refine ⟨hdist.1, fun i hi hi' => ?_⟩
  obtain ⟨d, hd, he⟩ := key _ (h1.mem_iff.1 (List.getElem_mem hi))
  have := hdist.2 i hi hi'
  simp only [List.get_eq_getElem] at this ⊢
  rw [hd] at this
  cases this
  exact he

/-- C86 is violated: if two consecutive nodes of an arc have the same position on a latitude which is converted to 41.75, then the function has
undefined behaviour (the conversion of not a number to `unsigned`). -/
theorem C86_same_position_violated {lib : MathLib} (hlib : lib.Good) (contract : Bool) (coord : Int → ℝ)
    (fits : TurnDirection → ℝ × ℝ → ℝ × ℝ → ℝ × ℝ → Bool)
    {inflate : List Byte → Option (List Byte)} {required optional : List Str} {file : List Byte} {items : List OsmItem}
    (h : EncodesFile inflate required optional file items) (hid : ∀ i ∈ items, ¬ i.Reserved) (hg : ∀ i ∈ items, i.GoodIds)
    {m : IdMapping} (hm : MappingFits m items) {debug : Bool} (hd : debug = true → m.modelling.size = m.routing.size)
    (own assumeOrdered : Bool) (hord : assumeOrdered = true → items.Pairwise fun i j => kind i ≤ kind j) (k : Nat → Nat)
    (stdSort : SortFn) (junk : Nat → Word) {cb : WayCallback σ} {decoder : Option RestrictionDecoder} {geo : Geometry}
    {u u' : σ} {arcs : List MapArc} (hA : graphArcs (On m.ways) (On m.routing) (onesBelow m.ways) (callbackOf cb) u items = some (u', arcs))
    {a : MapArc} (ha : a ∈ arcs) {before after : List Nat} {x y : Nat} (hxy : segmentNodes a.seg = before ++ x :: y :: after)
    {lat lon : Int} (hx : position items x = some (lat, lon)) (hy : position items y = some (lat, lon)) (hlat : coord lat = 41.75) :
    loadGraph (osmOps lib contract coord fits) debug inflate own k stdSort junk m cb u decoder assumeOrdered geo file = .ub := by
  refine C60_length_undefined h hid hg hm hd own assumeOrdered hord k stdSort junk hA ⟨a, ha, ?_⟩
  have hnone : segmentLength (osmOps lib contract coord fits) items a.seg = (none : Option ℝ) := by
    refine path_none _ _ _ (Or.inl fun hc => ?_)
    change (segmentNodes a.seg).IsChain _ at hc
    rw [hxy] at hc
    have h2 := (List.isChain_append.1 hc).2.1
    rw [List.isChain_cons_cons] at h2
    apply h2.1
    simp only [coordinates, hx, hy]
    change Ieee.geoDist lib contract (coord lat, coord lon) (coord lat, coord lon) = none
    rw [hlat]
    exact C85_self_distance_nan_violated hlib contract _
  rw [hnone]
  rfl

/-- The latitude of 41.75 degrees is converted to 41.75. -/
theorem osmCoord_value : osmCoord 41750000000 = 41.75 := by
  have h := value_error (g := 100) (k := ((41750000000 : Int) : ℝ) / 100) (t := 41.75) (by norm_num)
  unfold osmCoord
  push_cast at h ⊢
  generalize dbl (dbl (dbl 0.000000001 * 100) * (41750000000 / 100)) = v at h
  have h := abs_le.1 h
  rw [abs_of_pos (by norm_num)] at h
  norm_num at h
  have hv : 0 < v := by linarith
  have := rnd_eq 24 (x := v) (e := -18) (n := 10944512) (by rw [abs_of_pos hv]; norm_num; linarith) (by rw [abs_of_pos hv]; norm_num; linarith)
    (by rw [abs_lt]; norm_num; constructor <;> linarith)
  rw [flt, this]
  norm_num

/-! ### An example -/

/-- The latitudes of the nodes 3, 5 and 6: 41.75, 41.75 and 41.85 degrees. -/
def pairLats : List Byte := [192#8, 173#8, 148#8, 142#8, 3#8, 0#8, 128#8, 137#8, 122#8]

theorem pairLats_ok : EncodesPacked pairLats [835000000, 0, 2000000] := by
  refine .cons (v := [192#8, 173#8, 148#8, 142#8, 3#8]) ⟨⟨[192#8, 173#8, 148#8, 142#8], 3#8, rfl, by decide, by decide⟩, by decide, by decide, by decide⟩ ?_
  refine .cons (v := [0#8]) (smallVarint (by decide)) ?_
  exact .cons (v := [128#8, 137#8, 122#8]) (l := []) ⟨⟨[128#8, 137#8], 122#8, rfl, by decide, by decide⟩, by decide, by decide, by decide⟩ .nil

/-- Their longitudes: 12.5 degrees. -/
def pairLons : List Byte := [128#8, 229#8, 154#8, 119#8, 0#8, 0#8]

theorem pairLons_ok : EncodesPacked pairLons [250000000, 0, 0] := by
  refine .cons (v := [128#8, 229#8, 154#8, 119#8]) ⟨⟨[128#8, 229#8, 154#8], 119#8, rfl, by decide, by decide⟩, by decide, by decide, by decide⟩ ?_
  refine .cons (v := [0#8]) (smallVarint (by decide)) ?_
  exact .cons (v := [0#8]) (l := []) (smallVarint (by decide)) .nil

def pairDense : List Byte := smallMessage [.bytes 1 [6#8, 4#8, 2#8], .bytes 8 pairLats, .bytes 9 pairLons]
def pairNodes : List DenseNode := [⟨3, 417500000, 125000000, [], []⟩, ⟨5, 417500000, 125000000, [], []⟩, ⟨6, 418500000, 125000000, [], []⟩]

theorem pairDense_ok : EncodesDense roadStrings pairDense pairNodes :=
  ⟨_, _, _, _, smallMessage_ok (by decide), by decide, smallPacked (xs := [6, 4, 2]) (by decide), by decide, pairLats_ok,
    by decide, pairLons_ok, Or.inl ⟨by decide, by decide⟩, by
      intro n hn
      simp only [pairNodes, List.mem_cons, List.not_mem_nil, or_false] at hn
      rcases hn with rfl | rfl | rfl <;> exact ⟨⟨by decide, .nil⟩, by simp⟩⟩

def pairWay1 : List Byte := smallMessage [.varint 1 7, .bytes 2 [1#8], .bytes 3 [2#8], .bytes 8 [6#8, 4#8]]
def pairWay2 : List Byte := smallMessage [.varint 1 8, .bytes 2 [1#8], .bytes 3 [2#8], .bytes 8 [10#8, 2#8]]

theorem pairWay1_ok : EncodesWay roadStrings pairWay1 7 [3, 5] roadTags :=
  ⟨_, [(1, 2)], smallMessage_ok (by decide), by decide, by decide, Or.inr ⟨_, by decide, smallPacked (xs := [1]) (by decide)⟩,
    Or.inr ⟨_, by decide, smallPacked (xs := [2]) (by decide)⟩, ⟨by decide, .cons ⟨rfl, rfl⟩ .nil⟩,
    Or.inr ⟨_, by decide, smallPacked (xs := [6, 4]) (by decide)⟩⟩

theorem pairWay2_ok : EncodesWay roadStrings pairWay2 8 [5, 6] roadTags :=
  ⟨_, [(1, 2)], smallMessage_ok (by decide), by decide, by decide, Or.inr ⟨_, by decide, smallPacked (xs := [1]) (by decide)⟩,
    Or.inr ⟨_, by decide, smallPacked (xs := [2]) (by decide)⟩, ⟨by decide, .cons ⟨rfl, rfl⟩ .nil⟩,
    Or.inr ⟨_, by decide, smallPacked (xs := [10, 2]) (by decide)⟩⟩

def pairBlock : List Byte :=
  smallMessage [.bytes 1 (smallMessage (roadStrings.map (Field.bytes 1))), .bytes 2 (smallMessage [.bytes 2 pairDense, .bytes 3 pairWay1, .bytes 3 pairWay2])]

/-- The objects of the example: the nodes 3 and 5 have the same position. -/
def pairItems : List OsmItem :=
  [.node 3 41750000000 12500000000 [], .node 5 41750000000 12500000000 [], .node 6 41850000000 12500000000 [], .way 7 [3, 5] roadTags, .way 8 [5, 6] roadTags]

theorem pairBlock_ok : EncodesBlock ⟨roadStrings, 100, 0, 0⟩ false pairBlock pairItems :=
  ⟨_, _, [pairItems], smallMessage_ok (by decide +kernel), by decide +kernel, smallMessage_ok (by decide), by decide, by decide, Or.inl ⟨by decide +kernel, rfl⟩,
    by decide, by decide, by decide, Or.inl ⟨by decide +kernel, by decide⟩, Or.inl ⟨by decide +kernel, by decide⟩,
    .cons ⟨_, smallMessage_ok (fs := [.bytes 2 pairDense, .bytes 3 pairWay1, .bytes 3 pairWay2]) (by decide +kernel),
      GroupIs.dense (h := ⟨roadStrings, 100, 0, 0⟩) (nodes := pairNodes) (items := [.way 7 [3, 5] roadTags, .way 8 [5, 6] roadTags]) pairDense_ok
        (.way pairWay1_ok (.way pairWay2_ok .nil))⟩ .nil, rfl⟩

def pairFile : List Byte :=
  let hb := smallMessage [.varint 2 exHeader.length, .bytes 1 exHeader]
  let hh := smallMessage [.bytes 1 (text "OSMHeader"), .varint 3 hb.length]
  let db := smallMessage [.varint 2 pairBlock.length, .bytes 1 pairBlock]
  let dh := smallMessage [.bytes 1 (text "OSMData"), .varint 3 db.length]
  (bigEndian hh.length ++ hh ++ hb) ++ ((bigEndian dh.length ++ dh ++ db) ++ [])

theorem pairFile_ok : EncodesFile (fun _ => none) [text "DenseNodes", text "HistoricalInformation"] [text "Sort.Type_then_ID"] pairFile pairItems := by
  refine ⟨_, _, _, _, _, rfl, ⟨_, _, rfl, smallMessage_ok (by decide), by decide, by decide, by decide, by decide⟩,
    ⟨_, smallMessage_ok (by decide), by decide, by decide, by decide, by decide, Or.inl ⟨by decide, by decide⟩⟩,
    smallMessage_ok (fs := [.bytes 4 (text "DenseNodes"), .bytes 4 (text "HistoricalInformation"), .bytes 5 (text "Sort.Type_then_ID")]) (by decide), by decide, by decide, ?_⟩
  exact .data (others := []) ⟨_, _, rfl, smallMessage_ok (by decide +kernel), by decide +kernel, by decide +kernel, by decide +kernel, by decide +kernel⟩
    ⟨_, smallMessage_ok (by decide +kernel), by decide +kernel, by decide +kernel, by decide +kernel, by decide +kernel, Or.inl ⟨by decide +kernel, by decide +kernel⟩⟩ rfl rfl pairBlock_ok .nil

theorem pairGood : ∀ i ∈ pairItems, i.GoodIds := by
  intro i hi
  simp only [pairItems, List.mem_cons, List.not_mem_nil, or_false] at hi
  rcases hi with rfl | rfl | rfl | rfl | rfl <;> simp [OsmItem.GoodIds]

theorem pairReserved : ∀ i ∈ pairItems, ¬ i.Reserved := by
  intro i hi
  simp only [pairItems, List.mem_cons, List.not_mem_nil, or_false] at hi
  rcases hi with rfl | rfl | rfl | rfl | rfl <;> simp [OsmItem.Reserved]

theorem pairMapping (w : Word) {id a b : Nat} (hu : usedWays (fun i _ => decide (BitVec.ofInt 64 i = w)) pairItems = [((id : Int), [(a : Int), (b : Int)])]) :
    ∃ m, loadMapping (fun _ => none) false 0 none (fun i _ => decide (i = w)) false pairFile = .ok m ∧ MappingFits m pairItems ∧
      (On m.ways = fun x => decide (x = id)) ∧ On m.routing = fun x => decide (x = a ∨ x = b) := by
  obtain ⟨es, t, e, hr⟩ := C56_unordered_partial pairFile_ok pairReserved false (c := ⟨false, true, false⟩) (Or.inr (Or.inl rfl)) 0
  have ha : acceptedNodes (accepts none) pairItems = [] := rfl
  obtain ⟨m, e1, hf, hM⟩ := mapping_fits (f := none) (use := fun i _ => decide (i = w)) (all := false) (items := pairItems) hr rfl pairGood (by
      intro id n n' t t' h1 h2
      simp [pairItems] at h1 h2
      rcases h1 with h1 | h1 <;> rcases h2 with h2 | h2 <;> first | (exfalso; omega) | (rw [h1.2.1, h2.2.1])) (by rw [ha, hu]; simp [invalidId])
    (by rw [hu]; simp [invalidId])
  rw [ha, hu] at hM
  refine ⟨m, by unfold loadMapping Out.run; rw [show (none : Option (Word → Tags → Bool)).isSome = false from rfl, e, e1], hf, ?_, ?_⟩
  · funext x
    have := (hM x).1
    simp only [List.mem_singleton, exists_eq_left] at this
    rw [Bool.eq_iff_iff, this]
    simp
    omega
  · funext x
    have := (hM x).2.2
    rw [Bool.eq_iff_iff, this]
    simp only [Bool.false_eq_true, if_false, IsRoutingNode, List.not_mem_nil, false_or, List.mem_singleton, exists_eq_left, List.head?_cons,
      List.flatMap_cons, List.flatMap_nil, List.append_nil, List.getLast?_cons_cons, List.getLast?_singleton, Option.some.injEq,
      List.count_cons, List.count_nil, decide_eq_true_eq, beq_iff_eq]
    constructor
    · rintro ((h | h) | h)
      · omega
      · omega
      · split_ifs at h <;> omega
    · rintro (rfl | rfl) <;> simp

/-- C86 is violated for a file: the nodes of the way 7 have the same position, 41.75 degrees north. The mapping is computed, but the
graph is not. -/
theorem C86_example_file_violated {lib : MathLib} (hlib : lib.Good) (contract : Bool) (fits : TurnDirection → ℝ × ℝ → ℝ × ℝ → ℝ × ℝ → Bool) :
    ∃ m, loadMapping (fun _ => none) false 0 none (fun i _ => decide (i = 7)) false pairFile = .ok m ∧
      ∀ (own assumeOrdered : Bool) (k : Nat → Nat) (stdSort : SortFn) (junk : Nat → Word) (decoder : Option RestrictionDecoder) (geo : Geometry),
        loadGraph (osmOps lib contract osmCoord fits) false (fun _ => none) own k stdSort junk m (fun (n : Nat) _ _ _ => some (n + 1, .openInBoth)) 0
          decoder assumeOrdered geo pairFile = .ub := by
  obtain ⟨m, e, hf, h1, h2⟩ := pairMapping 7 (id := 7) (a := 3) (b := 5) rfl
  refine ⟨m, e, ?_⟩
  intro own assumeOrdered k stdSort junk decoder geo
  refine C86_same_position_violated hlib contract osmCoord fits pairFile_ok pairReserved pairGood hf (by simp) own assumeOrdered
    (by intro _; simp [pairItems, kind]) k stdSort junk (u' := 1) (arcs := [⟨7, ⟨3, [], 5⟩, false⟩, ⟨7, ⟨3, [], 5⟩, true⟩])
    (by rw [h1, h2]; rfl) List.mem_cons_self (before := []) (after := []) (x := 3) (y := 5) rfl (lat := 41750000000) (lon := 12500000000) (by decide) (by decide) osmCoord_value

theorem pair_position5 : position pairItems 5 = some (41750000000, 12500000000) := by decide
theorem pair_position6 : position pairItems 6 = some (41850000000, 12500000000) := by decide

/-- The distance of the nodes of the way 8. -/
theorem pair_dist : RK.geoDist (degrees pairItems 5) (degrees pairItems 6) = 0.1 * RK.piDiv180 * RK.earthRadius := by
  simp only [degrees, pair_position5, pair_position6, inDegrees, RK.geoDist, RK.geoCos, sub_self, zero_mul, Real.cos_zero]
  have hp := piDiv180_pos
  have ht := Real.arccos_cos (x := 0.1 * RK.piDiv180) (by positivity) (by
    have := Real.pi_gt_three
    unfold RK.piDiv180
    norm_num
    linarith)
  rw [show (((41750000000 : Int) : ℝ) / 1000000000 - ((41850000000 : Int) : ℝ) / 1000000000) * RK.piDiv180 = -(0.1 * RK.piDiv180) by push_cast; ring,
    Real.cos_neg]
  generalize Real.cos (((41750000000 : Int) / 1000000000 + (41850000000 : Int) / 1000000000 : ℝ) * RK.piDiv180) = c
  generalize Real.cos (0.1 * RK.piDiv180) = b at ht ⊢
  rw [show ((b + c) * 1 + b - c) * 0.5 = b by ring, ht]

theorem pair_bounds : 6 ≤ 0.1 * RK.piDiv180 * RK.earthRadius ∧ 0.1 * RK.piDiv180 * RK.earthRadius ≤ Real.pi * RK.earthRadius - 6 := by
  have := Real.pi_gt_three
  unfold RK.piDiv180 RK.earthRadius
  norm_num
  linarith

/-- The hypotheses of `C86_arc_lengths_partial` can be met: the way 8 of the same file, whose nodes are a tenth of a degree apart. -/
example (fits : TurnDirection → ℝ × ℝ → ℝ × ℝ → ℝ × ℝ → Bool) :
    ∃ m g, ∃ arcs' : List MapArc, loadMapping (fun _ => none) false 0 none (fun i _ => decide (i = 8)) false pairFile = .ok m ∧
      loadGraph (osmOps roundedLib true osmCoord fits) false (fun _ => none) false (fun _ => 0) (fun _ _ l => l) (fun _ => 0) m
        (fun (n : Nat) _ _ _ => some (n + 1, .openInBoth)) 0 none false .none pairFile = .ok (g, 1) ∧
      arcs'.Perm [⟨8, ⟨5, [], 6⟩, false⟩, ⟨8, ⟨5, [], 6⟩, true⟩] ∧
      List.Forall₂ (fun a (d : Nat) => |(d : ℝ) - exactLength pairItems a.seg| ≤ 1 + 6 * (a.seg.inner.length + 1)) arcs' g.geoDistance := by
  obtain ⟨m, e, hf, h1, h2⟩ := pairMapping 8 (id := 8) (a := 5) (b := 6) rfl
  have hd := pair_dist
  have hR := pair_bounds
  have harcs : ∀ a ∈ ([⟨8, ⟨5, [], 6⟩, false⟩, ⟨8, ⟨5, [], 6⟩, true⟩] : List MapArc), a.seg = ⟨5, [], 6⟩ := by simp
  obtain ⟨g, arcs', e2, hp, _, _, hF⟩ := C86_arc_lengths_partial roundedLib_good true osmCoord_good fits pairFile_ok pairReserved pairGood hf (debug := false) (by simp)
    false false (by simp) (fun _ => 0) (fun _ _ l => l) (fun _ => 0) (cb := fun (n : Nat) _ _ _ => some (n + 1, .openInBoth)) (geo := .none) (u := 0) (u' := 1)
    (arcs := [⟨8, ⟨5, [], 6⟩, false⟩, ⟨8, ⟨5, [], 6⟩, true⟩]) (by rw [h1, h2]; rfl) (by
      intro a ha x hx
      rw [harcs a ha] at hx
      simp only [segmentNodes, List.nil_append, List.mem_cons, List.not_mem_nil, or_false] at hx
      rcases hx with rfl | rfl
      · exact ⟨_, pair_position5, by unfold OnEarth; decide⟩
      · exact ⟨_, pair_position6, by unfold OnEarth; decide⟩) (by
      intro a ha
      rw [harcs a ha]
      simp only [segmentNodes, List.nil_append, List.isChain_cons_cons, List.isChain_singleton, and_true, hd]
      exact hR) (by
      intro a ha
      rw [harcs a ha]
      simp only [exactLength, List.nil_append, pathLength, hd]
      unfold RK.piDiv180 RK.earthRadius
      norm_num) (by decide)
  exact ⟨m, g, arcs', e, e2, hp, hF⟩

/-! ### Coordinates -/

/-- **C86**, coordinates: for a list of up to a million nodes in the usual range, the coordinates that result from adding up the differences, as `float`,
differ from the coordinates in the file by at most 0.000007 degrees (latitudes) and 0.0000125 degrees (longitudes). -/
theorem C86_coordinates {g : ℕ} {vs : List Int} (hn : vs.length ≤ 1000000) :
    ((∀ v ∈ vs, |(v * g / 1000000000 : ℝ)| ≤ 90) →
      List.Forall₂ (fun (c : ℝ) (v : Int) => |flt c| ≤ 90 ∧ |flt c - v * g / 1000000000| ≤ 0.000007) (denseCoords g 0 (deltas 0 vs)) vs) ∧
    ((∀ v ∈ vs, |(v * g / 1000000000 : ℝ)| ≤ 180) →
      List.Forall₂ (fun (c : ℝ) (v : Int) => |flt c| ≤ 180 ∧ |flt c - v * g / 1000000000| ≤ 0.0000125) (denseCoords g 0 (deltas 0 vs)) vs) := by
  have key : (∀ v ∈ vs, |(v * g / 1000000000 : ℝ)| ≤ 180) →
      List.Forall₂ (fun (c : ℝ) (v : Int) => |c - v * g / 1000000000| ≤ 0.000001) (denseCoords g 0 (deltas 0 vs)) vs :=
    fun h => denseCoords_error vs 0 0 0 (by simpa using hn) (by simp) h (by simp)
  have mem : ∀ {B : ℝ} {P : ℝ → Int → Prop} {l : List ℝ} {vs : List Int}, List.Forall₂ (fun (c : ℝ) (v : Int) => |c - v * g / 1000000000| ≤ 0.000001) l vs →
      (∀ v ∈ vs, |(v * g / 1000000000 : ℝ)| ≤ B) →
      (∀ (c : ℝ) (v : Int), |(v * g / 1000000000 : ℝ)| ≤ B → |c - v * g / 1000000000| ≤ 0.000001 → P c v) → List.Forall₂ P l vs := by
    intro B P l vs h hB hP
    induction h with
    | nil => exact .nil
    | cons h1 _ ih => exact .cons (hP _ _ (hB _ List.mem_cons_self) h1) (ih fun v hv => hB v (List.mem_cons_of_mem _ hv))
  exact ⟨fun h => mem (key fun v hv => (h v hv).trans (by norm_num)) h fun c v h1 h2 => float_latitude h1 h2,
    fun h => mem (key h) h fun c v h1 h2 => float_longitude h1 h2⟩

/-- A meridian from pole to pole in two steps. -/
example : ∀ v ∈ ([-900000000, 0, 900000000] : List Int), |(v * (100 : ℕ) / 1000000000 : ℝ)| ≤ 90 := by
  intro v hv
  simp only [List.mem_cons, List.not_mem_nil, or_false] at hv
  rcases hv with rfl | rfl | rfl <;> norm_num

/-! ### The tool that computes weights -/

theorem floor_near {D L e : ℝ} (h0 : 0 ≤ D) (h : |D - L| ≤ e) : |((⌊D⌋.toNat : ℕ) : ℝ) - L| ≤ 1 + e := by
  have h1 : ((⌊D⌋.toNat : ℕ) : ℝ) = (⌊D⌋ : ℝ) := by
    have : ((⌊D⌋.toNat : ℕ) : ℤ) = ⌊D⌋ := Int.toNat_of_nonneg (Int.floor_nonneg.2 h0)
    exact_mod_cast this
  rw [h1]
  have h2 := Int.floor_le D
  have h3 := Int.lt_floor_add_one D
  have h4 := abs_le.1 h
  exact abs_le.2 ⟨by linarith, by linarith⟩

theorem geoWeight_near {lib : MathLib} (hlib : lib.Good) (contract : Bool) {a b c d : ℝ} (h1 : InRange (a, b)) (h2 : InRange (c, d))
    (h : 1.5 ≤ RK.geoDist (a, b) (c, d) ∧ RK.geoDist (a, b) (c, d) ≤ Real.pi * RK.earthRadius - 1.5) :
    ∃ w, geoWeight lib contract a b c d = some w ∧ |(w : ℝ) - RK.geoDist (a, b) (c, d)| ≤ 2.5 := by
  have he := C85_distance_error_partial hlib contract (a, b) (c, d) h1 h2
  unfold geoWeight
  cases e : Ieee.geoDist lib contract (a, b) (c, d) with
  | none =>
    rw [e] at he
    rcases he with he | he
    · exact absurd h.1 (not_le.2 he)
    · exact absurd h.2 (not_le.2 he)
  | some D =>
    rw [e] at he
    simp only at he
    have hb := abs_le.1 he
    have h0 : 0 ≤ D := by linarith [h.1]
    have hpi := Real.pi_lt_four
    have hD : D < 4294967296 := by
      have h3 := h.2
      unfold RK.earthRadius at h3
      norm_num at h3 hb
      linarith
    refine ⟨⌊D⌋.toNat, if_pos ⟨by linarith, hD⟩, ?_⟩
    have := floor_near h0 he
    norm_num at this ⊢
    exact this

/-- **C86**, `compute_geographic_distance_weights` (partial): for a valid graph with coordinates in the usual range whose arcs are at least 1.5 m long (and
their ends that far from being antipodes), the weight of each arc differs from the exact distance of its ends by at most 2.5 m. -/
theorem C86_tool_weights_partial {lib : MathLib} (hlib : lib.Good) (contract : Bool) (n : Nat) (firstOut head : List Nat) (latitude longitude : List ℝ)
    (h : IsCSR n firstOut head) (h1 : latitude.length = n) (h2 : longitude.length = n)
    (ha : ∀ a ∈ latitude, |a| ≤ 90) (hb : ∀ b ∈ longitude, |b| ≤ 180)
    (hd : ∀ (i x y : Nat) (a b c d : ℝ), OutArc firstOut x i → head[i]? = some y → latitude[x]? = some a → longitude[x]? = some b →
      latitude[y]? = some c → longitude[y]? = some d →
      1.5 ≤ RK.geoDist (a, b) (c, d) ∧ RK.geoDist (a, b) (c, d) ≤ Real.pi * RK.earthRadius - 1.5) :
    ∃ weight, toolGeoWeights (geoWeight lib contract) firstOut head latitude longitude = .ok weight ∧ weight.length = head.length ∧
      ∀ (i x y : Nat) (a b c d : ℝ), OutArc firstOut x i → head[i]? = some y → latitude[x]? = some a → longitude[x]? = some b →
        latitude[y]? = some c → longitude[y]? = some d → ∃ w, weight[i]? = some w ∧ |(w : ℝ) - RK.geoDist (a, b) (c, d)| ≤ 2.5 := by
  have key : ∀ x i, OutArc firstOut x i → ∃ y a b c d w, head[i]? = some y ∧ latitude[x]? = some a ∧ longitude[x]? = some b ∧ latitude[y]? = some c ∧
      longitude[y]? = some d ∧ arcDist (geoWeight lib contract) head latitude longitude (x, i) = some w ∧ |(w : ℝ) - RK.geoDist (a, b) (c, d)| ≤ 2.5 := by
    intro x i hx
    obtain ⟨y, a, b, c, d, hy, e1, e2, e3, e4, e⟩ := arcDist_isSome (dist := geoWeight lib contract) h (Nat.le_of_eq h1.symm) (Nat.le_of_eq h2.symm) hx
    obtain ⟨w, hw, hn⟩ := geoWeight_near hlib contract (a := a) (b := b) (c := c) (d := d)
      ⟨ha _ (List.mem_of_getElem? e1), hb _ (List.mem_of_getElem? e2)⟩ ⟨ha _ (List.mem_of_getElem? e3), hb _ (List.mem_of_getElem? e4)⟩
      (hd i x y a b c d hx hy e1 e2 e3 e4)
    exact ⟨y, a, b, c, d, w, hy, e1, e2, e3, e4, e.trans hw, hn⟩
  obtain ⟨w, e, hl, hw⟩ := toolGeoWeights_ok (dist := geoWeight lib contract) (lat := latitude) (lon := longitude) h (fun x i hx => by
    obtain ⟨_, _, _, _, _, w, _, _, _, _, _, e, _⟩ := key x i hx
    rw [e]; rfl)
  refine ⟨w, e, hl, ?_⟩
  intro i x y a b c d hx hy e1 e2 e3 e4
  obtain ⟨y', a', b', c', d', v, hy', f1, f2, f3, f4, f, hv⟩ := key x i hx
  rw [hy] at hy'; cases hy'
  rw [e1] at f1; cases f1
  rw [e2] at f2; cases f2
  rw [e3] at f3; cases f3
  rw [e4] at f4; cases f4
  exact ⟨v, (hw x i hx).trans f, hv⟩

/-- C86 is violated: a valid graph with an arc between nodes with the same position on the latitude 41.75, for example a loop: undefined behaviour. -/
theorem C86_tool_weights_violated {lib : MathLib} (hlib : lib.Good) (contract : Bool) (n : Nat) (firstOut head : List Nat) (latitude longitude : List ℝ)
    (h : IsCSR n firstOut head) (i x y : Nat) (hx : OutArc firstOut x i) (hy : head[i]? = some y) (lon : ℝ)
    (h1 : latitude[x]? = some 41.75) (h2 : latitude[y]? = some 41.75) (h3 : longitude[x]? = some lon) (h4 : longitude[y]? = some lon) :
    toolGeoWeights (geoWeight lib contract) firstOut head latitude longitude = .ub := by
  refine C76_weights_undefined _ n firstOut head latitude longitude h i x y hx hy (Or.inr (Or.inr (Or.inr (Or.inr ⟨_, _, _, _, h1, h3, h2, h4, ?_⟩))))
  unfold geoWeight
  rw [C85_self_distance_nan_violated hlib]
  rfl

/-- A graph with a single node and a loop. -/
example : toolGeoWeights (geoWeight roundedLib false) [0, 1] [0] [41.75] [12.5] = .ub :=
  C86_tool_weights_violated roundedLib_good false 1 [0, 1] [0] _ _ ((csr_iff rfl).2 (by decide)) 0 0 0 ⟨0, 1, rfl, rfl, by decide, by decide⟩ rfl 12.5 rfl rfl rfl rfl

/-- Two nodes on a meridian and an arc in each direction. -/
example : ∃ weight, toolGeoWeights (geoWeight roundedLib false) [0, 1, 2] [1, 0] [10, 11] [20, 20] = .ok weight ∧ weight.length = 2 := by
  have hd : RK.geoDist (10, 20) (11, 20) = RK.piDiv180 * RK.earthRadius := by
    simp only [RK.geoDist, RK.geoCos, sub_self, zero_mul, Real.cos_zero]
    have hp := piDiv180_pos
    have ht := Real.arccos_cos (x := RK.piDiv180) (by positivity) (by
      have := Real.pi_gt_three
      unfold RK.piDiv180
      norm_num
      linarith)
    rw [show ((10 : ℝ) - 11) * RK.piDiv180 = -RK.piDiv180 by ring, Real.cos_neg]
    generalize Real.cos ((10 + 11 : ℝ) * RK.piDiv180) = c
    generalize Real.cos RK.piDiv180 = b at ht ⊢
    rw [show ((b + c) * 1 + b - c) * 0.5 = b by ring, ht]
  have hR : 1.5 ≤ RK.piDiv180 * RK.earthRadius ∧ RK.piDiv180 * RK.earthRadius ≤ Real.pi * RK.earthRadius - 1.5 := by
    have := Real.pi_gt_three
    unfold RK.piDiv180 RK.earthRadius
    norm_num
    linarith
  obtain ⟨w, e, hl, _⟩ := C86_tool_weights_partial roundedLib_good false 2 [0, 1, 2] [1, 0] [10, 11] [20, 20] ((csr_iff rfl).2 (by decide)) rfl rfl
    (by intro a ha; simp only [List.mem_cons, List.not_mem_nil, or_false] at ha; rcases ha with rfl | rfl <;> norm_num)
    (by intro a ha; simp only [List.mem_cons, List.not_mem_nil, or_false] at ha; rcases ha with rfl | rfl <;> norm_num) (by
      intro i x y a b c d hx hy h1 h2 h3 h4
      match i, hy with
      | 0, hy =>
        cases hy
        obtain ⟨s, t, hs, ht, h5, h6⟩ := hx
        match x, hs, ht with
        | 0, hs, ht => cases h1; cases h2; cases h3; cases h4; rw [hd]; exact hR
        | 1, hs, ht => cases hs; omega
      | 1, hy =>
        cases hy
        obtain ⟨s, t, hs, ht, h5, h6⟩ := hx
        match x, hs, ht with
        | 0, hs, ht => cases ht; omega
        | 1, hs, ht => cases h1; cases h2; cases h3; cases h4; rw [C51_metric.symm, hd]; exact hR)
  exact ⟨w, e, hl⟩

end RK.Props
