import Verif.Proof.OsmDoubleGraph
import Verif.Props.OsmFloat
import Verif.Proof.OsmUndefined
/-! # C45, C56, C86: coordinates of type `double` -/
namespace RK.Props
open RK RK.Osm _root_.Spec Ieee

variable {σ : Type}

/-- C45, C56: rounding concerns only the coordinates. For all bytes, callbacks and schedules of the reader: with coordinates of type `double`
the same callbacks are called with the same ids, nodes, members and tags as with exact coordinates, and with the same outcome. -/
theorem C45_rounding_only_coordinates (contract : Bool) (inflate : List Byte → Option (List Byte)) (own : Bool) (c : Wanted) (file : List Byte) :
    (∀ k, (unorderedReadDouble contract inflate own c k file).2 = (unorderedRead inflate own c k file).2 ∧
      List.Forall₂ SameCall (unorderedRead inflate own c k file).1 (unorderedReadDouble contract inflate own c k file).1) ∧
    ∀ assumeOrdered k, (orderedReadDouble contract inflate own c assumeOrdered k file).2 = (orderedRead inflate own c assumeOrdered k file).2 ∧
      List.Forall₂ SameCall (orderedRead inflate own c assumeOrdered k file).1 (orderedReadDouble contract inflate own c assumeOrdered k file).1 := by
  refine ⟨fun k => ?_, fun a k => ?_⟩
  · have h := unorderedRead_sim (N := 0) contract inflate own c k file
    exact ⟨h.result, h.calls⟩
  · have h := orderedRead_sim (N := 0) contract inflate own c a k file
    exact ⟨h.result, h.calls⟩

/-- C45, C56: for every valid file (as in C56) with nodes on the globe, `unordered_read_osm_pbf` reports all objects in the order of the file,
and the coordinates, of type `double`, have an error of at most 0.0000026 degrees. -/
theorem C45_double_unordered (contract : Bool) {inflate : List Byte → Option (List Byte)} {required optional : List Str} {file : List Byte}
    {items : List OsmItem} (h : EncodesFile inflate required optional file items) (hid : ∀ i ∈ items, ¬ i.Reserved) (hgl : ∀ i ∈ items, OnGlobe i)
    (own : Bool) {c : Wanted} (hc : c.node ∨ c.way ∨ c.relation) (k : Nat) :
    ∃ es m', unorderedReadDouble contract inflate own c k file = (es, .ok m') ∧ List.Forall₂ (ReportedWithin 0.0000026) es (items.filter c.wants) := by
  obtain ⟨es, m', e, hr⟩ := C56_unordered_partial h hid own hc k
  obtain ⟨ds, e', hd⟩ := sim_reported (err := 0.0000026) (by norm_num) (unorderedRead_sim contract inflate own c k file) (goodInput_file h own) e hr
    fun i hi => hgl i (List.mem_filter.1 hi).1
  exact ⟨ds, m', e', hd⟩

/-- C45, C56: the same for `ordered_read_osm_pbf`, which reports all nodes, then all ways, then all relations. -/
theorem C45_double_ordered (contract : Bool) {inflate : List Byte → Option (List Byte)} {required optional : List Str} {file : List Byte}
    {items : List OsmItem} (h : EncodesFile inflate required optional file items) (hid : ∀ i ∈ items, ¬ i.Reserved) (hgl : ∀ i ∈ items, OnGlobe i)
    (own : Bool) {c : Wanted} (hc : c.node ∨ c.way ∨ c.relation) (k : Nat → Nat) :
    ∃ es m', orderedReadDouble contract inflate own c false k file = (es, .ok m') ∧
      List.Forall₂ (ReportedWithin 0.0000026) es
        (items.filter (fun i => c.wants i && (⟨true, false, false⟩ : Wanted).wants i) ++
         items.filter (fun i => c.wants i && (⟨false, true, false⟩ : Wanted).wants i) ++
         items.filter (fun i => c.wants i && (⟨false, false, true⟩ : Wanted).wants i)) := by
  obtain ⟨es, m', e, hr⟩ := C56_ordered_partial h hid own hc k
  obtain ⟨ds, e', hd⟩ := sim_reported (err := 0.0000026) (by norm_num) (orderedRead_sim contract inflate own c false k file) (goodInput_file h own) e hr (by
    intro i hi
    simp only [List.mem_append, List.mem_filter] at hi
    exact hgl i (by tauto))
  exact ⟨ds, m', e', hd⟩

theorem position_node {items : List OsmItem} {x : Nat} {p : Int × Int} (h : position items x = some p) :
    ∃ id tags, OsmItem.node id p.1 p.2 tags ∈ items := by
  induction items using List.reverseRecOn with
  | nil => simp [position] at h
  | append_singleton items i ih =>
    have keep : position items x = some p → ∃ id tags, OsmItem.node id p.1 p.2 tags ∈ items ++ [i] := fun h => by
      obtain ⟨id, tags, hm⟩ := ih h
      exact ⟨id, tags, List.mem_append_left _ hm⟩
    cases i with
    | node id lat lon tags =>
      rw [position_snoc] at h
      split at h
      · cases h; exact ⟨id, tags, by simp⟩
      · exact keep h
    | way _ _ _ => exact keep (by unfold position at h ⊢; rw [List.foldl_append] at h; exact h)
    | relation _ _ _ => exact keep (by unfold position at h ⊢; rw [List.foldl_append] at h; exact h)

theorem scanOf_nil {fl : FloatOps} (geo : Geometry) (m : IdMapping) (pos pos' : Nat → fl.F × fl.F) (u : σ) (la lo : List fl.F) (rs : List TurnRestriction) :
    scanOf (envAt fl geo m pos) [] [] u la lo rs = scanOf (envAt fl geo m pos') [] [] u la lo rs := rfl

/-- The graph builder with coordinates of type `double`. -/
theorem graphDouble_ok {fl : FloatOps} (contract : Bool) (ofDouble : ℝ → fl.F)
    {inflate : List Byte → Option (List Byte)} {required optional : List Str} {file : List Byte} {items : List OsmItem}
    (h : EncodesFile inflate required optional file items) (hid : ∀ i ∈ items, ¬ i.Reserved) (hgl : ∀ i ∈ items, OnGlobe i) (hg : ∀ i ∈ items, i.GoodIds)
    {m : IdMapping} (hm : MappingFits m items) {debug : Bool} (hd : debug = true → m.modelling.size = m.routing.size)
    (own assumeOrdered : Bool) (hord : assumeOrdered = true → items.Pairwise fun i j => kind i ≤ kind j) (k : Nat → Nat)
    (stdSort : SortFn) (junk : Nat → Word) {cb : WayCallback σ} {geo : Geometry}
    {u u' : σ} {arcs : List MapArc} (hA : graphArcs (On m.ways) (On m.routing) (onesBelow m.ways) (callbackOf cb) u items = some (u', arcs))
    (hb : (arcs.flatMap (storedNodes geo)).length < 2 ^ 31) :
    ∃ pos, PosWithin 0.0000026 ofDouble items pos ∧ ((∀ a ∈ arcs, (fl.toUnsigned (segmentLengthAt fl pos a.seg)).isSome) →
      ∃ g arcs', loadGraphDouble contract fl ofDouble debug inflate own k stdSort junk m cb u none assumeOrdered geo file = .ok (g, u') ∧
        arcs'.Perm arcs ∧ SortedArcsOf m arcs arcs' ∧ ShowsAt pos m geo arcs' g) := by
  obtain ⟨⟨Bm, rm⟩, ⟨Br, rr⟩, ⟨Bw, rw'⟩⟩ := hm.valid
  obtain ⟨mp, emp, hE0⟩ := env_ok (fl := fl) hm geo (pos := fun _ => (fl.zero, fl.zero)) rm rr rw'
  obtain ⟨pos, la, lo, es2, es3, m', hpos, hc, h2, h3, er, ef⟩ := scanDouble_ok contract h hid hgl hg own assumeOrdered hord k hE0 ofDouble cb none u
    (err := 0.0000026) (by norm_num) (goodInput_file h own)
  refine ⟨pos, hpos, fun hu => ?_⟩
  obtain ⟨mp', emp', hE⟩ := env_ok (fl := fl) hm geo (pos := pos) rm rr rw'
  rw [emp] at emp'
  cases emp'
  have hf : ∀ id nodes tags, OsmItem.way id nodes tags ∈ items → BitVector.at' Bw id.toNat = true → WayFits (BitVector.at' Bm) (BitVector.at' Br) nodes := by
    intro id nodes tags hi hw
    rw [← onF rw'] at hw
    have := hm.ways id nodes tags hi hw
    rwa [onF rm, onF rr] at this
  have hA' := hA
  rw [onF rw', onF rr, onesF rw'] at hA'
  have e1 := scan_rest hg hE (cb := cb) (decoder := none) hc h2 h3 hf hA' hu rfl
  have har := arcs_routing hA' hf
  obtain ⟨g, tail, arcs', e2, h1, h2, h3, h4, h5⟩ := finish_ok hm rm rr rw' hE hc stdSort junk har hu hb u' []
  refine ⟨g, arcs', ?_, h1, h2, h4⟩
  rw [scanOf_nil geo m _ pos] at ef
  unfold loadGraphDouble
  rw [assert_ok hm hd, emp]
  simp only [Res.ofOption_some, Res.ok_bind]
  have hw : wantedGeometry none geo = geo := by simp [wantedGeometry]
  rw [hw]
  unfold DoubleOut.run
  have ef' : forEach (orderedReadDouble contract inflate own ⟨true, true, (none : Option RestrictionDecoder).isSome⟩ assumeOrdered k file).1 (Scan.start mp u)
      (scanEventDouble ofDouble geo mp cb none) = some (scanOf (envAt fl geo m pos) arcs [] u' la lo []) := ef.trans e1
  rw [ef', er]
  simp only [Res.ok_bind]
  rw [e2]
  simp [forbiddenTurns]

/-- **C86**, lengths of arcs and coordinates (partial), with the coordinates that the decoder computes by adding up differences of type `double`, and which are
then rounded to `float`: for every file with nodes on the globe, the graph is loaded; each node has a position within 0.000007 (latitude) and 0.0000125 degrees
(longitude) of the file, or zero if it is not in the file; and the length of each arc in whole meters differs from the exact length of its way by at most
6 m for each line, and 1 m. Consecutive nodes of each arc are in the file and at least 6 m from each other (and from being antipodes), and no arc is longer
than two million kilometers. `coord` is not used. -/
theorem C86_arc_lengths_history_partial {lib : MathLib} (hlib : lib.Good) (contract : Bool) (coord : Int → ℝ)
    (fits : TurnDirection → ℝ × ℝ → ℝ × ℝ → ℝ × ℝ → Bool)
    {inflate : List Byte → Option (List Byte)} {required optional : List Str} {file : List Byte} {items : List OsmItem}
    (h : EncodesFile inflate required optional file items) (hid : ∀ i ∈ items, ¬ i.Reserved) (hgl : ∀ i ∈ items, OnGlobe i) (hg : ∀ i ∈ items, i.GoodIds)
    {m : IdMapping} (hm : MappingFits m items) {debug : Bool} (hd : debug = true → m.modelling.size = m.routing.size)
    (own assumeOrdered : Bool) (hord : assumeOrdered = true → items.Pairwise fun i j => kind i ≤ kind j) (k : Nat → Nat)
    (stdSort : SortFn) (junk : Nat → Word) {cb : WayCallback σ} {geo : Geometry}
    {u u' : σ} {arcs : List MapArc} (hA : graphArcs (On m.ways) (On m.routing) (onesBelow m.ways) (callbackOf cb) u items = some (u', arcs))
    (hp : ∀ a ∈ arcs, ∀ x ∈ segmentNodes a.seg, (position items x).isSome)
    (hs : ∀ a ∈ arcs, (segmentNodes a.seg).IsChain fun x y => 6 ≤ RK.geoDist (degrees items x) (degrees items y) ∧
      RK.geoDist (degrees items x) (degrees items y) ≤ Real.pi * RK.earthRadius - 6)
    (hl : ∀ a ∈ arcs, exactLength items a.seg ≤ 2000000000)
    (hb : (arcs.flatMap (storedNodes geo)).length < 2 ^ 31) :
    ∃ g arcs', ∃ pos : Nat → ℝ × ℝ, loadGraphDouble contract (osmOps lib contract coord fits) flt debug inflate own k stdSort junk m cb u none assumeOrdered geo file =
        .ok (g, u') ∧
      arcs'.Perm arcs ∧ SortedArcsOf m arcs arcs' ∧ ShowsAt (fl := osmOps lib contract coord fits) pos m geo arcs' g ∧
      (∀ x, match position items x with
        | some p => |(pos x).1 - p.1 / 1000000000| ≤ 0.000007 ∧ |(pos x).2 - p.2 / 1000000000| ≤ 0.0000125
        | none => pos x = (0, 0)) ∧
      List.Forall₂ (fun a (d : Nat) => |(d : ℝ) - exactLength items a.seg| ≤ 1 + 6 * (a.seg.inner.length + 1)) arcs' g.geoDistance := by
  obtain ⟨pos, hpos, hgr⟩ := graphDouble_ok (fl := osmOps lib contract coord fits) contract flt h hid hgl hg hm hd own assumeOrdered hord k stdSort junk hA hb
  have near : ∀ x p, position items x = some p → NearPos (pos x) p := by
    intro x p hx
    obtain ⟨lat, lon, e, w1, w2⟩ := hpos.some x p hx
    obtain ⟨id, tags, hi⟩ := position_node hx
    rw [e]
    exact float_position (hgl _ hi) w1 w2
  have key : ∀ a ∈ arcs, _ := fun a ha => segment_error_at hlib contract coord fits (pos := pos) (fun x hx => by
    obtain ⟨p, e⟩ := Option.isSome_iff_exists.1 (hp a ha x hx)
    exact ⟨p, e, near x p e⟩) (hs a ha) (hl a ha)
  obtain ⟨g, arcs', e, h1, h2, h4⟩ := hgr fun a ha => by obtain ⟨d, hd, _⟩ := key a ha; rw [hd]; rfl
  refine ⟨g, arcs', pos, e, h1, h2, h4, ?_, ?_⟩
  · intro x
    cases e : position items x with
    | none => exact hpos.none x e
    | some p => exact ⟨(near x p e).latitude, (near x p e).longitude⟩
  · have hdist := h4.distance
    rw [List.forall₂_iff_get] at hdist ⊢
    refine ⟨hdist.1, fun i hi hi' => ?_⟩
    obtain ⟨d, hd, he⟩ := key _ (h1.mem_iff.1 (List.getElem_mem hi))
    have := hdist.2 i hi hi'
    simp only [List.get_eq_getElem] at this ⊢
    rw [hd] at this
    cases this
    exact he

theorem pairGlobe : ∀ i ∈ pairItems, OnGlobe i := by
  intro i hi
  simp only [pairItems, List.mem_cons, List.not_mem_nil, or_false] at hi
  rcases hi with rfl | rfl | rfl | rfl | rfl <;> simp [OnGlobe, abs_le]

/-- The hypotheses can be met: a file with three nodes and two ways. -/
example : ∃ es m', unorderedReadDouble false (fun _ => none) false ⟨true, true, true⟩ 0 pairFile = (es, .ok m') ∧
    List.Forall₂ (ReportedWithin 0.0000026) es pairItems := by
  obtain ⟨es, m', e, h⟩ := C45_double_unordered false pairFile_ok pairReserved pairGlobe false (c := ⟨true, true, true⟩) (Or.inl rfl) 0
  exact ⟨es, m', e, h⟩

example : ∃ es m', orderedReadDouble true (fun _ => none) true ⟨true, true, true⟩ false (fun _ => 0) pairFile = (es, .ok m') ∧
    List.Forall₂ (ReportedWithin 0.0000026) es pairItems := by
  obtain ⟨es, m', e, h⟩ := C45_double_ordered true pairFile_ok pairReserved pairGlobe true (c := ⟨true, true, true⟩) (Or.inl rfl) (fun _ => 0)
  exact ⟨es, m', e, h⟩

/-- The hypotheses of `C86_arc_lengths_history_partial` can be met: the way 8 of the file, whose nodes are a tenth of a degree apart. -/
example (coord : Int → ℝ) (fits : TurnDirection → ℝ × ℝ → ℝ × ℝ → ℝ × ℝ → Bool) :
    ∃ m g, ∃ arcs' : List MapArc, loadMapping (fun _ => none) false 0 none (fun i _ => decide (i = 8)) false pairFile = .ok m ∧
      loadGraphDouble true (osmOps roundedLib true coord fits) flt false (fun _ => none) false (fun _ => 0) (fun _ _ l => l) (fun _ => 0) m
        (fun (n : Nat) _ _ _ => some (n + 1, .openInBoth)) 0 none false .none pairFile = .ok (g, 1) ∧
      arcs'.Perm [⟨8, ⟨5, [], 6⟩, false⟩, ⟨8, ⟨5, [], 6⟩, true⟩] ∧
      List.Forall₂ (fun a (d : Nat) => |(d : ℝ) - exactLength pairItems a.seg| ≤ 1 + 6 * (a.seg.inner.length + 1)) arcs' g.geoDistance := by
  obtain ⟨m, e, hf, h1, h2⟩ := pairMapping 8 (id := 8) (a := 5) (b := 6) rfl
  have harcs : ∀ a ∈ ([⟨8, ⟨5, [], 6⟩, false⟩, ⟨8, ⟨5, [], 6⟩, true⟩] : List MapArc), a.seg = ⟨5, [], 6⟩ := by simp
  obtain ⟨g, arcs', pos, e2, hp, _, _, _, hF⟩ := C86_arc_lengths_history_partial roundedLib_good true coord fits pairFile_ok pairReserved pairGlobe pairGood hf
    (debug := false) (by simp) false false (by simp) (fun _ => 0) (fun _ _ l => l) (fun _ => 0) (cb := fun (n : Nat) _ _ _ => some (n + 1, .openInBoth))
    (geo := .none) (u := 0) (u' := 1) (arcs := [⟨8, ⟨5, [], 6⟩, false⟩, ⟨8, ⟨5, [], 6⟩, true⟩]) (by rw [h1, h2]; rfl) (by
      intro a ha x hx
      rw [harcs a ha] at hx
      simp only [segmentNodes, List.nil_append, List.mem_cons, List.not_mem_nil, or_false] at hx
      rcases hx with rfl | rfl <;> decide) (by
      intro a ha
      rw [harcs a ha]
      simp only [segmentNodes, List.nil_append, List.isChain_cons_cons, List.isChain_singleton, and_true, pair_dist]
      exact pair_bounds) (by
      intro a ha
      rw [harcs a ha]
      simp only [exactLength, List.nil_append, pathLength, pair_dist]
      unfold RK.piDiv180 RK.earthRadius
      norm_num) (by decide)
  exact ⟨m, g, arcs', e, e2, hp, hF⟩

/-- The graph builder with coordinates of type `double` if a length cannot be converted. -/
theorem graphDouble_undefined {fl : FloatOps} (contract : Bool) (ofDouble : ℝ → fl.F)
    {inflate : List Byte → Option (List Byte)} {required optional : List Str} {file : List Byte} {items : List OsmItem}
    (h : EncodesFile inflate required optional file items) (hid : ∀ i ∈ items, ¬ i.Reserved) (hgl : ∀ i ∈ items, OnGlobe i) (hg : ∀ i ∈ items, i.GoodIds)
    {m : IdMapping} (hm : MappingFits m items) {debug : Bool} (hd : debug = true → m.modelling.size = m.routing.size)
    (own assumeOrdered : Bool) (hord : assumeOrdered = true → items.Pairwise fun i j => kind i ≤ kind j) (k : Nat → Nat)
    (stdSort : SortFn) (junk : Nat → Word) {cb : WayCallback σ} {decoder : Option RestrictionDecoder} {geo : Geometry}
    {u u' : σ} {arcs : List MapArc} (hA : graphArcs (On m.ways) (On m.routing) (onesBelow m.ways) (callbackOf cb) u items = some (u', arcs))
    {N : Nat} {err : ℝ} (he : (N : ℝ) * 0.00000000000023 ≤ err) (hin : GoodInput N (decompressFile inflate own file).2.1) :
    ∃ pos, PosWithin err ofDouble items pos ∧ ((∃ a ∈ arcs, fl.toUnsigned (segmentLengthAt fl pos a.seg) = none) →
      loadGraphDouble contract fl ofDouble debug inflate own k stdSort junk m cb u decoder assumeOrdered geo file = .ub) := by
  obtain ⟨⟨Bm, rm⟩, ⟨Br, rr⟩, ⟨Bw, rw'⟩⟩ := hm.valid
  obtain ⟨mp, emp, hE0⟩ := env_ok (fl := fl) hm (wantedGeometry decoder geo) (pos := fun _ => (fl.zero, fl.zero)) rm rr rw'
  obtain ⟨pos, la, lo, es2, es3, m', hpos, hc, h2, h3, er, ef⟩ := scanDouble_ok contract h hid hgl hg own assumeOrdered hord k hE0 ofDouble cb decoder u he hin
  refine ⟨pos, hpos, fun hu => ?_⟩
  obtain ⟨mp', emp', hE⟩ := env_ok (fl := fl) hm (wantedGeometry decoder geo) (pos := pos) rm rr rw'
  rw [emp] at emp'
  cases emp'
  have hf : ∀ id nodes tags, OsmItem.way id nodes tags ∈ items → BitVector.at' Bw id.toNat = true → WayFits (BitVector.at' Bm) (BitVector.at' Br) nodes := by
    intro id nodes tags hi hw
    rw [← onF rw'] at hw
    have := hm.ways id nodes tags hi hw
    rwa [onF rm, onF rr] at this
  rw [onF rw', onF rr, onesF rw'] at hA
  have fmem : ∀ {p : OsmItem → Bool} {i : OsmItem}, i ∈ items.filter p → i ∈ items ∧ p i = true := fun hi => List.mem_filter.1 hi
  have e1 := scanWays_none hE (cb := cb) decoder hc [] h2 (fun i hi => hg i (fmem hi).1) (fun i hi => (fmem hi).2)
    (fun id nodes tags hi => hf id nodes tags (fmem hi).1) (u := u) (u' := u') (as := []) (new := arcs)
    (by rw [graphArcs_filter]; exact hA) hu
  rw [scanOf_nil _ m _ pos, forEach_append] at ef
  have e1' : forEach es2 (scanOf (envAt fl (wantedGeometry decoder geo) m pos) [] [] u la lo [])
      (scanEvent (envAt fl (wantedGeometry decoder geo) m fun _ => (fl.zero, fl.zero)).geo mp cb decoder) = none := e1
  rw [e1', Option.bind_none] at ef
  unfold loadGraphDouble
  rw [assert_ok hm hd, emp]
  simp only [Res.ofOption_some, Res.ok_bind]
  unfold DoubleOut.run
  have ef' : forEach (orderedReadDouble contract inflate own ⟨true, true, decoder.isSome⟩ assumeOrdered k file).1 (Scan.start mp u)
      (scanEventDouble ofDouble (wantedGeometry decoder geo) mp cb decoder) = none := ef
  rw [ef']
  rfl

theorem pairInput (own : Bool) : GoodInput 1000 (decompressFile (fun _ => none) own pairFile).2.1 := by
  have hlen : ∀ l ∈ (decompressFile (fun _ => none) own pairFile).2.1, l.length < 3000 := by
    cases own <;> decide +kernel
  obtain ⟨st, ds, parts, e, g1, hrest⟩ := decompressFile_ok own pairFile_ok (rest := []) (by decide)
  rw [List.append_nil] at e
  clear hrest
  generalize decompressFile (fun _ => none) own pairFile = r at e hlen ⊢
  subst e
  refine goodInput_of g1 (fun d hd => ?_) (by decide)
  have := hlen (frame d) (List.mem_map_of_mem hd)
  unfold frame at this
  rw [List.length_append] at this
  omega

theorem flt_exact_near {v : ℝ} {n e : ℤ} (h1 : 2 ^ 23 + 1 ≤ n) (h2 : n + 1 ≤ 2 ^ 24) (h : |v - n * 2 ^ e| < 2 ^ e / 2) : flt v = n * 2 ^ e := by
  have hu : (0 : ℝ) < 2 ^ e := by positivity
  have h1' : (2 : ℝ) ^ 23 + 1 ≤ n := by exact_mod_cast h1
  have h2' : (n : ℝ) + 1 ≤ 2 ^ 24 := by exact_mod_cast h2
  have hh := abs_lt.1 h
  have hv : 0 < v := by nlinarith
  have e1 : (2 : ℝ) ^ (e + (24 : ℕ) - 1) = 2 ^ 23 * 2 ^ e := by
    rw [show e + ((24 : ℕ) : ℤ) - 1 = 23 + e by push_cast; ring, zpow_add₀ two_ne_zero]; norm_num
  have e2 : (2 : ℝ) ^ (e + (24 : ℕ)) = 2 ^ 24 * 2 ^ e := by
    rw [show e + ((24 : ℕ) : ℤ) = 24 + e by push_cast; ring, zpow_add₀ two_ne_zero]; norm_num
  refine rnd_eq 24 (x := v) (e := e) (n := n) ?_ ?_ h
  · rw [abs_of_pos hv, e1]; nlinarith
  · rw [abs_of_pos hv, e2]; nlinarith

/-- C86 is violated also with the coordinates that the decoder computes: the nodes of the way 7 have the same position, 41.75 degrees north and 12.5 degrees
east. The mapping is computed, but the graph is not. -/
theorem C86_history_example_violated {lib : MathLib} (hlib : lib.Good) (contract : Bool) (coord : Int → ℝ)
    (fits : TurnDirection → ℝ × ℝ → ℝ × ℝ → ℝ × ℝ → Bool) :
    ∃ m, loadMapping (fun _ => none) false 0 none (fun i _ => decide (i = 7)) false pairFile = .ok m ∧
      ∀ (own assumeOrdered : Bool) (k : Nat → Nat) (stdSort : SortFn) (junk : Nat → Word) (decoder : Option RestrictionDecoder) (geo : Geometry),
        loadGraphDouble contract (osmOps lib contract coord fits) flt false (fun _ => none) own k stdSort junk m
          (fun (n : Nat) _ _ _ => some (n + 1, .openInBoth)) 0 decoder assumeOrdered geo pairFile = .ub := by
  obtain ⟨m, e, hf, h1, h2⟩ := pairMapping 7 (id := 7) (a := 3) (b := 5) rfl
  refine ⟨m, e, ?_⟩
  intro own assumeOrdered k stdSort junk decoder geo
  obtain ⟨pos, hpos, hub⟩ := graphDouble_undefined (fl := osmOps lib contract coord fits) contract flt pairFile_ok pairReserved pairGlobe pairGood hf
    (debug := false) (by simp) own assumeOrdered (by intro _; simp [pairItems, kind]) k stdSort junk (cb := fun (n : Nat) _ _ _ => some (n + 1, .openInBoth))
    (decoder := decoder) (geo := geo) (u := 0) (u' := 1) (arcs := [⟨7, ⟨3, [], 5⟩, false⟩, ⟨7, ⟨3, [], 5⟩, true⟩]) (by rw [h1, h2]; rfl)
    (N := 1000) (err := 0.0000001) (by norm_num) (by with_reducible exact pairInput own)
  have hp : ∀ x, position pairItems x = some (41750000000, 12500000000) → pos x = ((41.75 : ℝ), (12.5 : ℝ)) := by
    intro x hx
    obtain ⟨lat, lon, e, w1, w2⟩ := hpos.some x _ hx
    rw [e]
    unfold Within at w1 w2
    norm_num at w1 w2
    have a1 := flt_exact_near (v := lat) (n := 10944512) (e := -18) (by norm_num) (by norm_num) (by norm_num; linarith)
    have a2 := flt_exact_near (v := lon) (n := 13107200) (e := -20) (by norm_num) (by norm_num) (by norm_num; linarith)
    rw [a1, a2]
    refine Prod.ext ?_ ?_
    · change ((10944512 : ℤ) : ℝ) * 2 ^ (-18 : ℤ) = 41.75
      norm_num
    · change ((13107200 : ℤ) : ℝ) * 2 ^ (-20 : ℤ) = 12.5
      norm_num
  refine hub ⟨_, List.mem_cons_self, ?_⟩
  have hnone : segmentLengthAt (osmOps lib contract coord fits) pos ⟨3, [], 5⟩ = (none : Option ℝ) := by
    refine path_none _ _ _ (Or.inl fun hc => ?_)
    simp only [List.nil_append, List.isChain_cons_cons] at hc
    apply hc.1
    rw [hp 3 (by decide), hp 5 (by decide)]
    exact C85_self_distance_nan_violated hlib contract _
  change (osmOps lib contract coord fits).toUnsigned (segmentLengthAt (osmOps lib contract coord fits) pos ⟨3, [], 5⟩) = none
  rw [hnone]
  rfl

end RK.Props
