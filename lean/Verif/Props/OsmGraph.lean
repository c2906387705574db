import Verif.Proof.OsmGraph
import Verif.Props.OsmMapping
/-! # C60: the routing graph of an OpenStreetMap file -/
namespace RK.Props
open RK RK.Osm Spec BitVector

variable {fl : FloatOps} {σ : Type}

/-- The number of set bits. -/
def total (v : BitVector) : Nat := onesBelow v v.size

/-- The bit vectors of the mapping have been made by the operations on bit vectors. -/
def ValidMapping (m : IdMapping) : Prop := (∃ B, m.modelling.Rep B) ∧ (∃ B, m.routing.Rep B) ∧ ∃ B, m.ways.Rep B

/-- What the graph builder relies on: routing nodes are modelling nodes; the nodes of each marked way are modelling nodes, its
first and last node are routing nodes; and the numbers are 32 bit ids. -/
structure MappingFits (m : IdMapping) (items : List OsmItem) : Prop where
  valid : ValidMapping m
  sub : ∀ x, On m.routing x = true → On m.modelling x = true
  ways : ∀ id nodes tags, OsmItem.way id nodes tags ∈ items → On m.ways id.toNat = true →
    (∀ x ∈ nodes, On m.modelling x.toNat = true) ∧
    ∃ a b, nodes.head? = some a ∧ nodes.getLast? = some b ∧ On m.routing a.toNat = true ∧ On m.routing b.toNat = true
  modellingCount : total m.modelling < invalidId
  routingCount : total m.routing < invalidId
  wayCount : total m.ways < invalidId

/-- The coordinates of a node; zero if it is not in the file. -/
def coordinates (fl : FloatOps) (items : List OsmItem) (x : Nat) : fl.F × fl.F :=
  match position items x with
  | some (a, b) => (fl.ofCoord a, fl.ofCoord b)
  | none => (fl.zero, fl.zero)

/-- The length of a segment whose nodes have the coordinates `pos`: the lengths of the lines between its nodes are added up. -/
def segmentLengthAt (fl : FloatOps) (pos : Nat → fl.F × fl.F) (s : Segment) : fl.D :=
  pathLength fl.add (fun p y => fl.geoDist (pos y).1 (pos y).2 (pos p).1 (pos p).2) fl.zeroD s.first (s.inner ++ [s.last])

/-- The length of a segment. -/
abbrev segmentLength (fl : FloatOps) (items : List OsmItem) (s : Segment) : fl.D := segmentLengthAt fl (coordinates fl items) s

/-- The nodes of an arc whose coordinates are stored. -/
def storedNodes (geo : Geometry) (a : MapArc) : List Nat :=
  match geo with
  | .none => []
  | .uncompressed => a.inner
  | .firstAndLast => ends a.inner

/-- The graph shows the arcs: one entry in each vector per arc; the nodes and ways have the numbers given by the mapping,
the nodes the coordinates `pos`. -/
structure ShowsAt (pos : Nat → fl.F × fl.F) (m : IdMapping) (geo : Geometry) (arcs : List MapArc) (g : RoutingGraph fl) : Prop where
  head : g.head = arcs.map fun a => onesBelow m.routing a.head
  way : g.way = arcs.map fun a => onesBelow m.ways a.way
  anti : g.anti = arcs.map (·.anti)
  distance : List.Forall₂ (fun a d => fl.toUnsigned (segmentLengthAt fl pos a.seg) = some d) arcs g.geoDistance
  /-- The arcs out of each node are consecutive. -/
  csr : IsCSR (total m.routing) g.firstOut g.head
  ends : ∀ a ∈ arcs, On m.routing a.tail = true ∧ On m.routing a.head = true
  firstOut : ∀ x, On m.routing x = true → ∃ b e, g.firstOut[onesBelow m.routing x]? = some b ∧
    g.firstOut[onesBelow m.routing x + 1]? = some e ∧ ∀ (j : Nat) (a : MapArc), arcs[j]? = some a → (a.tail = x ↔ b ≤ j ∧ j < e)
  /-- The coordinates of the nodes. -/
  latitudes : g.latitude.length = total m.routing
  longitudes : g.longitude.length = total m.routing
  latitude : ∀ x, On m.routing x = true → g.latitude[onesBelow m.routing x]? = some (pos x).1
  longitude : ∀ x, On m.routing x = true → g.longitude[onesBelow m.routing x]? = some (pos x).2
  /-- The coordinates of the nodes between tail and head of each arc. -/
  firstMod : g.firstMod = if geo = .none then [] else
    (List.range (arcs.length + 1)).map fun i => ((arcs.take i).flatMap (storedNodes geo)).length
  modLat : g.modLat = (arcs.flatMap (storedNodes geo)).map fun x => (pos x).1
  modLon : g.modLon = (arcs.flatMap (storedNodes geo)).map fun x => (pos x).2

/-- The graph shows the arcs, and the nodes have the coordinates in the file. -/
abbrev Shows (items : List OsmItem) (m : IdMapping) (geo : Geometry) (arcs : List MapArc) (g : RoutingGraph fl) : Prop :=
  ShowsAt (coordinates fl items) m geo arcs g

/-- The arcs sorted by tail, then by head; arcs with the same tail and head keep their order. -/
def SortedArcsOf (m : IdMapping) (arcs arcs' : List MapArc) : Prop :=
  ∃ p, LexSortPerm (arcs.map fun a => onesBelow m.routing a.tail) (arcs.map fun a => onesBelow m.routing a.head) p ∧
    List.Forall₂ (fun (i : Nat) a => arcs[i]? = some a) p arcs'

theorem total_eq {v : BitVector} {B : List Bool} (h : v.Rep B) : total v = B.count true := by
  unfold total
  rw [onesBelow_eq h, h.size]
  exact countP_at B _ (Nat.le_refl _)

theorem onF {v : BitVector} {B : List Bool} (h : v.Rep B) : On v = at' B := funext fun x => on_eq h x
theorem onesF {v : BitVector} {B : List Bool} (h : v.Rep B) : onesBelow v = rk (at' B) := funext fun x => onesBelow_eq h x

theorem stored_eq (geo : Geometry) : storedNodes geo = fun a => stored geo a.inner := by
  funext a; cases geo <;> rfl

/-- The environment of the proofs. -/
def envAt (fl : FloatOps) (geo : Geometry) (m : IdMapping) (pos : Nat → fl.F × fl.F) : Env fl :=
  ⟨geo, pos, onesBelow m.modelling, onesBelow m.routing, onesBelow m.ways⟩

/-- The environment for the coordinates in the file. -/
abbrev envOf (fl : FloatOps) (geo : Geometry) (m : IdMapping) (items : List OsmItem) : Env fl := envAt fl geo m (coordinates fl items)

theorem env_ok {m : IdMapping} {items : List OsmItem} (h : MappingFits m items) (geo : Geometry) {pos : Nat → fl.F × fl.F} {Bm Br Bw : List Bool}
    (hm : m.modelling.Rep Bm) (hr : m.routing.Rep Br) (hw : m.ways.Rep Bw) :
    ∃ mp, Mappers.new m = some mp ∧ EnvOk (envAt fl geo m pos) mp Bm Br Bw := by
  obtain ⟨m1, e1, o1, _⟩ := IDMapper.new_spec hm
  obtain ⟨m2, e2, o2, _⟩ := IDMapper.new_spec hr
  obtain ⟨m3, e3, o3, _⟩ := IDMapper.new_spec hw
  refine ⟨⟨m1, m2, m3⟩, by simp only [Mappers.new, e1, e2, e3, Option.bind_eq_bind, Option.bind_some], o1, o2, o3, ?_, ?_, ?_, ?_, ?_, ?_⟩
  · rw [← total_eq hm]; exact h.modellingCount
  · rw [← total_eq hr]; exact h.routingCount
  · rw [← total_eq hw]; exact h.wayCount
  · exact onesF hm
  · exact onesF hr
  · exact onesF hw

theorem assert_ok {m : IdMapping} {items : List OsmItem} (h : MappingFits m items) {debug : Bool}
    (hd : debug = true → m.modelling.size = m.routing.size) : assertMapping debug m = some () := by
  cases debug with
  | false => rfl
  | true =>
    obtain ⟨⟨Bm, hm⟩, ⟨Br, hr⟩, _⟩ := h.valid
    have hl : Bm.length = Br.length := by rw [← hm.size, ← hr.size]; exact hd rfl
    obtain ⟨v1, e1, r1⟩ := hm.copy
    obtain ⟨v2, e2, r2⟩ := r1.orEq hr hl
    obtain ⟨b, e3, hb⟩ := r2.eq hm
    have : b = true := by
      apply hb.2
      apply list_ext_at (by simp [hl])
      intro x hx
      have hx1 : x < Bm.length := by simp [hl] at hx; omega
      rw [at_lt hx, List.getElem_zipWith, at_lt hx1]
      have := h.sub x
      rw [onF hm, onF hr, at_lt hx1, at_lt (show x < Br.length by omega)] at this
      cases hB : Br[x] with
      | false => simp
      | true => rw [this hB]; rfl
    subst this
    unfold assertMapping
    simp only [if_true, e1, e2, e3, Option.bind_eq_bind, Option.bind_some, check_true]

theorem shows_ok {m : IdMapping} {pos : Nat → fl.F × fl.F} {geo : Geometry} {Bm Br Bw : List Bool} (hm : m.modelling.Rep Bm) (hr : m.routing.Rep Br)
    (hw : m.ways.Rep Bw) {mp : Mappers} (hE : EnvOk (envAt fl geo m pos) mp Bm Br Bw) {arcs : List MapArc}
    (har : ∀ a ∈ arcs, at' Br a.tail = true ∧ at' Br a.head = true) (hs : (arcs.map fun a => onesBelow m.routing a.tail).Pairwise (· ≤ ·))
    (hu : ∀ a ∈ arcs, (fl.toUnsigned (segmentLengthAt fl pos a.seg)).isSome) {g : RoutingGraph fl} {tail : List Nat}
    (h : GraphIs (envAt fl geo m pos) Br arcs g tail) : ShowsAt pos m geo arcs g := by
  have hT := total_eq hr
  have hlt : ∀ x ∈ arcs.map (fun a => onesBelow m.routing a.tail), x < Br.count true := by
    intro x hx
    obtain ⟨a, ha, rfl⟩ := List.mem_map.1 hx
    rw [onesF hr]; exact rk_lt_count (har a ha).1
  obtain ⟨idx, e, h1, h2⟩ := invertVector_spec hs hlt
  have e' : g.firstOut = idx := by
    have := h.firstOut
    change invertVector (arcs.map fun a => onesBelow m.routing a.tail) _ = _ at this
    rw [e] at this; cases this; rfl
  subst e'
  have hmod : ∀ i, i ≤ total m.routing → g.firstOut[i]? = some (cLt (arcs.map fun a => onesBelow m.routing a.tail) i) := by
    intro i hi
    exact h2 i (by omega)
  have hhead : g.head = arcs.map fun a => onesBelow m.routing a.head := h.head
  refine ⟨h.head, h.way, h.anti, ?_, ⟨by rw [h1, hT], ?_, ?_, ?_, ?_⟩, ?_, ?_, ?_, ?_, ?_, ?_, ?_, ?_, ?_⟩
  · rw [h.geoDistance, List.forall₂_map_right_iff, List.forall₂_same]
    intro a ha
    obtain ⟨d, hd⟩ := Option.isSome_iff_exists.1 (hu a ha)
    unfold Env.dist
    have : (envAt fl geo m pos).length a.seg = segmentLengthAt fl pos a.seg := rfl
    rw [this, hd]; rfl
  · intro x b e hb he
    have hx := (List.getElem?_eq_some_iff.1 he).1
    rw [hmod x (by omega)] at hb
    rw [hmod (x + 1) (by omega)] at he
    cases hb; cases he
    exact cLt_mono _ (Nat.le_succ x)
  · rw [hmod 0 (Nat.zero_le _), cLt_zero]
  · rw [hmod _ (Nat.le_refl _), hT, cLt_all hlt, List.length_map, hhead, List.length_map]
  · intro a y hy
    rw [hhead, List.getElem?_map, Option.map_eq_some_iff] at hy
    obtain ⟨b, hb, rfl⟩ := hy
    rw [onesF hr, hT]
    exact rk_lt_count (har b (List.mem_of_getElem? hb)).2
  · intro a ha
    rw [onF hr]
    exact har a ha
  · intro x hx
    rw [onF hr] at hx
    have hxl := rk_lt_count hx
    rw [← onesF hr] at hxl
    refine ⟨_, _, hmod _ (by omega), hmod _ (by omega), ?_⟩
    intro j a hj
    have hj' : (arcs.map fun a => onesBelow m.routing a.tail)[j]? = some (onesBelow m.routing a.tail) := by
      rw [List.getElem?_map, hj]; rfl
    have ha := (har a (List.mem_of_getElem? hj)).1
    have h3 : a.tail = x ↔ onesBelow m.routing a.tail = onesBelow m.routing x := by
      constructor
      · intro e; rw [e]
      · intro e; rw [onesF hr] at e; exact rk_inj ha hx e
    rw [h3]
    have a1 := sorted_cLt (k := onesBelow m.routing x) hs hj'
    have a2 := sorted_cLt (k := onesBelow m.routing x + 1) hs hj'
    omega
  · rw [h.coords.lenA, hT]
  · rw [h.coords.lenO, hT]
  · intro x hx
    rw [onF hr] at hx
    have := h.coords.lat x hx
    rw [onesF hr]; exact this
  · intro x hx
    rw [onF hr] at hx
    have := h.coords.lon x hx
    rw [onesF hr]; exact this
  · rw [h.firstMod, stored_eq]; rfl
  · rw [h.modLat, stored_eq]; rfl
  · rw [h.modLon, stored_eq]; rfl

theorem lex_pairwise {l r p : List Nat} (h : LexSortPerm l r p) {l' : List Nat} (hl : l'.length = p.length)
    (hm : ∀ i k : Nat, p[i]? = some k → l'[i]? = l[k]?) (hr : l.length = r.length) : l'.Pairwise (· ≤ ·) := by
  rw [List.pairwise_iff_getElem]
  intro i j hi hj hij
  have e1 := hm i _ (List.getElem?_eq_getElem (show i < p.length by omega))
  have e2 := hm j _ (List.getElem?_eq_getElem (show j < p.length by omega))
  rw [List.getElem?_eq_getElem hi] at e1
  rw [List.getElem?_eq_getElem hj] at e2
  have k1 := rd_some_lt (v := l) (i := p[i]) e1.symm
  have k2 := rd_some_lt (v := l) (i := p[j]) e2.symm
  have := h.2.2 i j _ _ _ _ _ _ hij (List.getElem?_eq_getElem (by omega)) (List.getElem?_eq_getElem (by omega)) e1.symm e2.symm
    (List.getElem?_eq_getElem (show p[i] < r.length by omega)) (List.getElem?_eq_getElem (show p[j] < r.length by omega))
  omega

/-- What happens with the arcs before the forbidden turns are computed. -/
theorem finish_ok {items : List OsmItem} {m : IdMapping} (hm : MappingFits m items) {pos : Nat → fl.F × fl.F} {geo : Geometry} {mp : Mappers}
    {Bm Br Bw : List Bool} (rm : m.modelling.Rep Bm) (rr : m.routing.Rep Br) (rw' : m.ways.Rep Bw) (hE : EnvOk (envAt fl geo m pos) mp Bm Br Bw)
    {la lo : List fl.F} (hc : Coords pos Bm la lo) (stdSort : SortFn) (junk : Nat → Word) {arcs : List MapArc}
    (har : ∀ a ∈ arcs, at' Br a.tail = true ∧ at' Br a.head = true) (hu : ∀ a ∈ arcs, (fl.toUnsigned (segmentLengthAt fl pos a.seg)).isSome)
    (hb : (arcs.flatMap (storedNodes geo)).length < 2 ^ 31) (u' : σ) (rs : List TurnRestriction) :
    ∃ g tail arcs', finishGraph stdSort junk geo mp (scanOf (envAt fl geo m pos) arcs [] u' la lo rs) =
        (forbiddenTurns stdSort junk mp g tail rs).bind (fun r => some (r, u')) ∧
      arcs'.Perm arcs ∧ SortedArcsOf m arcs arcs' ∧ GraphIs (envAt fl geo m pos) Br arcs' g tail ∧
      ShowsAt pos m geo arcs' g ∧ g.forbiddenFrom = [] ∧ g.forbiddenTo = [] := by
  obtain ⟨g, tail, p, arcs', e2, hp, hF, hperm, hG, h1, h2⟩ := sortGraph_ok hE (by
      intro x hx
      have := hm.sub x
      rw [onF rm, onF rr] at this
      exact this hx) hc har (by rw [stored_eq] at hb; exact hb) u' rs
  have hsort : (arcs'.map fun a => onesBelow m.routing a.tail).Pairwise (· ≤ ·) := by
    refine lex_pairwise hp (by rw [List.length_map, hF.length_eq]) ?_ (by simp)
    intro i j hij
    have hi : i < p.length := rd_some_lt (v := p) hij
    have hi' : i < arcs'.length := by rw [← hF.length_eq]; exact hi
    have := List.Forall₂.get hF hi hi'
    rw [List.getElem?_eq_getElem hi] at hij
    cases hij
    simp only [List.get_eq_getElem, rd] at this
    rw [List.getElem?_map, List.getElem?_map, this, List.getElem?_eq_getElem hi']
    rfl
  refine ⟨g, tail, arcs', ?_, hperm, ⟨p, hp, hF⟩, hG, ?_, h1, h2⟩
  · unfold finishGraph
    have e2' : sortGraph geo mp _ = _ := e2
    rw [e2']
    rfl
  · exact shows_ok rm rr rw' hE (fun a ha => har a (hperm.mem_iff.1 ha)) hsort (fun a ha => hu a (hperm.mem_iff.1 ha)) hG

/-- All that happens before the forbidden turns are computed. -/
theorem graph_ok {inflate : List Byte → Option (List Byte)} {required optional : List Str} {file : List Byte} {items : List OsmItem}
    (h : EncodesFile inflate required optional file items) (hid : ∀ i ∈ items, ¬ i.Reserved) (hg : ∀ i ∈ items, i.GoodIds)
    {m : IdMapping} (hm : MappingFits m items) {debug : Bool} (hd : debug = true → m.modelling.size = m.routing.size)
    (own assumeOrdered : Bool) (hord : assumeOrdered = true → items.Pairwise fun i j => kind i ≤ kind j) (k : Nat → Nat)
    (stdSort : SortFn) (junk : Nat → Word) {cb : WayCallback σ} {decoder : Option RestrictionDecoder} {geo : Geometry}
    {u u' : σ} {arcs : List MapArc} (hA : graphArcs (On m.ways) (On m.routing) (onesBelow m.ways) (callbackOf cb) u items = some (u', arcs))
    (hu : ∀ a ∈ arcs, (fl.toUnsigned (segmentLength fl items a.seg)).isSome)
    (hb : (arcs.flatMap (storedNodes (wantedGeometry decoder geo))).length < 2 ^ 31)
    {rs : List TurnRestriction} (hR : restrictionsOf decoder items = some rs) :
    ∃ mp Bm Br Bw g tail arcs', loadGraph fl debug inflate own k stdSort junk m cb u decoder assumeOrdered geo file =
        Res.ofOption ((forbiddenTurns stdSort junk mp g tail rs).bind fun r => some (r, u')) ∧
      EnvOk (envOf fl (wantedGeometry decoder geo) m items) mp Bm Br Bw ∧ m.modelling.Rep Bm ∧ m.routing.Rep Br ∧ m.ways.Rep Bw ∧
      (∀ a ∈ arcs, at' Br a.tail = true ∧ at' Br a.head = true) ∧
      arcs'.Perm arcs ∧ SortedArcsOf m arcs arcs' ∧ GraphIs (envOf fl (wantedGeometry decoder geo) m items) Br arcs' g tail ∧
      Shows items m (wantedGeometry decoder geo) arcs' g ∧ g.forbiddenFrom = [] ∧ g.forbiddenTo = [] := by
  obtain ⟨⟨Bm, rm⟩, ⟨Br, rr⟩, ⟨Bw, rw'⟩⟩ := hm.valid
  obtain ⟨mp, emp, hE⟩ := env_ok (fl := fl) hm (wantedGeometry decoder geo) rm rr rw'
  have hf : ∀ id nodes tags, OsmItem.way id nodes tags ∈ items → at' Bw id.toNat = true → WayFits (at' Bm) (at' Br) nodes := by
    intro id nodes tags hi hw
    rw [← onF rw'] at hw
    have := hm.ways id nodes tags hi hw
    rwa [onF rm, onF rr] at this
  rw [onF rw', onF rr, onesF rw'] at hA
  obtain ⟨la, lo, e1, hc⟩ := scan_ok h hid hg own assumeOrdered hord k hE rfl hf hA hu hR
  have har := arcs_routing hA hf
  obtain ⟨g, tail, arcs', e2, h1, h2, h3, h4, h5⟩ := finish_ok hm rm rr rw' hE hc stdSort junk har hu hb u' rs
  refine ⟨mp, Bm, Br, Bw, g, tail, arcs', ?_, hE, rm, rr, rw', har, h1, h2, h3, h4, h5⟩
  unfold loadGraph
  rw [assert_ok hm hd, emp]
  simp only [Res.ofOption_some, Res.ok_bind]
  have e1' : (orderedRead inflate own ⟨true, true, decoder.isSome⟩ assumeOrdered k file).run (Scan.start mp u)
    (scanEvent (wantedGeometry decoder geo) mp cb decoder) = _ := e1
  rw [e1', Res.ok_bind, e2]

/-- C60: for every file, every fitting mapping, every callback and every schedule of the reader,
`load_osm_routing_graph_from_pbf` returns the graph of the arcs of the marked ways; here without turn restrictions, see C61 for
those. -/
theorem C60_routing_graph {inflate : List Byte → Option (List Byte)} {required optional : List Str} {file : List Byte} {items : List OsmItem}
    (h : EncodesFile inflate required optional file items) (hid : ∀ i ∈ items, ¬ i.Reserved) (hg : ∀ i ∈ items, i.GoodIds)
    {m : IdMapping} (hm : MappingFits m items) {debug : Bool} (hd : debug = true → m.modelling.size = m.routing.size)
    (own assumeOrdered : Bool) (hord : assumeOrdered = true → items.Pairwise fun i j => kind i ≤ kind j) (k : Nat → Nat)
    (stdSort : SortFn) (junk : Nat → Word) {cb : WayCallback σ} {geo : Geometry}
    {u u' : σ} {arcs : List MapArc} (hA : graphArcs (On m.ways) (On m.routing) (onesBelow m.ways) (callbackOf cb) u items = some (u', arcs))
    (hu : ∀ a ∈ arcs, (fl.toUnsigned (segmentLength fl items a.seg)).isSome)
    (hb : (arcs.flatMap (storedNodes geo)).length < 2 ^ 31) :
    ∃ g arcs', loadGraph fl debug inflate own k stdSort junk m cb u none assumeOrdered geo file = .ok (g, u') ∧
      arcs'.Perm arcs ∧ SortedArcsOf m arcs arcs' ∧ Shows items m geo arcs' g ∧ g.forbiddenFrom = [] ∧ g.forbiddenTo = [] := by
  have hw : wantedGeometry none geo = geo := by simp [wantedGeometry]
  obtain ⟨mp, Bm, Br, Bw, g, tail, arcs', e, _, _, _, _, _, h1, h2, _, h3, h4⟩ := graph_ok h hid hg hm hd own assumeOrdered hord k stdSort junk
    (decoder := none) (geo := geo) hA hu (by rw [hw]; exact hb) rfl
  refine ⟨g, arcs', ?_, h1, h2, by rwa [hw] at h3, h4⟩
  rw [e]
  simp [forbiddenTurns]

/-- The segments of a way whose first and last node are routing nodes: together they are the way, they are consecutive, and they
begin and end with routing nodes, with none in between. -/
theorem C60_segments (routing : Nat → Bool) (a : Nat) (l : List Nat) (ha : routing a = true) (hl : ∃ z, (a :: l).getLast? = some z ∧ routing z = true) :
    (segments routing (a :: l)).flatMap (fun s => s.inner ++ [s.last]) = l ∧
    (∀ s ∈ segments routing (a :: l), routing s.first = true ∧ routing s.last = true ∧ ∀ y ∈ s.inner, routing y = false) ∧
    (∀ s, (segments routing (a :: l)).head? = some s → s.first = a) ∧
    (∀ (i : Nat) (s t : Segment), (segments routing (a :: l))[i]? = some s → (segments routing (a :: l))[i + 1]? = some t → t.first = s.last) := by
  have key : ∀ (l : List Nat) (first : Nat) (inner : List Nat), (∀ s, (segmentsFrom routing first inner l).head? = some s → s.first = first) ∧
      (∀ (i : Nat) (s t : Segment), (segmentsFrom routing first inner l)[i]? = some s → (segmentsFrom routing first inner l)[i + 1]? = some t → t.first = s.last) := by
    intro l
    induction l with
    | nil => intro first inner; exact ⟨fun s h => by simp [segmentsFrom] at h, fun i s t h => by simp [segmentsFrom] at h⟩
    | cons y l ih =>
      intro first inner
      by_cases hy : routing y = true
      · rw [segmentsFrom, if_pos hy]
        refine ⟨fun s h => by simp at h; subst h; rfl, ?_⟩
        intro i s t h1 h2
        cases i with
        | zero =>
          simp only [List.getElem?_cons_zero, Option.some.injEq] at h1
          subst h1
          rw [List.getElem?_cons_succ] at h2
          exact (ih y []).1 t (by rw [List.head?_eq_getElem?]; exact h2)
        | succ i => exact (ih y []).2 i s t h1 h2
      · rw [segmentsFrom, if_neg hy]
        exact ih first (inner ++ [y])
  refine ⟨?_, ?_, (key l a []).1, (key l a []).2⟩
  · exact segmentsFrom_join routing l a [] hl (by simp)
  · exact segmentsFrom_inner routing l a [] ha (by simp)

theorem count_le_of_holds {v : BitVector} {l : List Nat} {S : Nat → Prop} (h : Holds v S) (hs : ∀ x, S x → x ∈ l) : total v ≤ l.length := by
  obtain ⟨B, h1, h2⟩ := h
  rw [total_eq h1, ← show rk (at' B) B.length = B.count true from countP_at B _ (Nat.le_refl _)]
  unfold rk
  rw [List.countP_eq_length_filter]
  refine (List.Nodup.subperm (List.nodup_range.filter _) ?_).length_le
  intro x hx
  exact hs x ((h2 x).1 (List.mem_filter.1 hx).2)

/-- The mapping computed from a file fits to the file. -/
theorem mapping_fits {f : Option (Word → Tags → Bool)} {use : Word → Tags → Bool} {all : Bool} {es : List OsmEvent} {its items : List OsmItem}
    (h : List.Forall₂ Reported es its) (hits : its = items.filter (⟨f.isSome, true, false⟩ : Wanted).wants) (hg : ∀ i ∈ items, i.GoodIds)
    (hw : ∀ id nodes nodes' tags tags', OsmItem.way id nodes tags ∈ items → OsmItem.way id nodes' tags' ∈ items → nodes = nodes')
    (hn : (acceptedNodes (accepts f) items).length +
      ((usedWays (fun id t => use (BitVec.ofInt 64 id) t) items).flatMap Prod.snd).length < invalidId)
    (hc : (usedWays (fun id t => use (BitVec.ofInt 64 id) t) items).length < invalidId) :
    ∃ m, forEach es IdMapping.empty (mapEvent f use all) = some m ∧ MappingFits m items ∧
      MappingIs all (acceptedNodes (accepts f) items) (usedWays (fun id t => use (BitVec.ofInt 64 id) t) items) m := by
  have hg' : ∀ i ∈ its, i.GoodIds := by
    rw [hits]; exact fun i hi => hg i (List.mem_filter.1 hi).1
  obtain ⟨m, e, hM⟩ := mapping_ok (f := f) (use := use) (all := all) h hg'
  obtain ⟨m', e', hI⟩ := mapEvents_ok (isRoutingNode := f) (isWayUsed := use) (all := all) h hg' mapInv_empty
  rw [e] at e'
  cases e'
  rw [hits, accepted_filter, used_filter] at hM
  rw [hits, accepted_filter, used_filter] at hI
  simp only [List.nil_append] at hI
  have rep : ∀ {v : BitVector} {S : Nat → Prop}, Holds v S → ∃ B, v.Rep B := fun ⟨B, h, _⟩ => ⟨B, h⟩
  have hsub : ∀ x, On m.routing x = true → On m.modelling x = true := fun x hx => C59_routing_nodes_are_modelling_nodes hM hx
  refine ⟨m, e, ⟨⟨rep hI.modelling, rep hI.routing, rep hI.ways⟩, hsub, ?_, ?_, ?_, ?_⟩, hM⟩
  · intro id nodes tags hi hmark
    obtain ⟨w, hwm, hwe⟩ := ((hM _).1).1 hmark
    obtain ⟨i, hi', hiw⟩ := List.mem_filterMap.1 hwm
    have hid0 : 0 ≤ id := (hg _ hi).1.1
    cases i with
    | way id' nodes' tags' =>
      simp only at hiw
      split at hiw
      · rename_i hc
        cases hiw
        have : id' = id := by simp only at hwe; omega
        subst this
        have := hw _ _ _ _ _ hi hi'
        subst this
        have hpos := (hg _ hi).2
        refine ⟨?_, ?_⟩
        · intro x hx
          rw [(hM _).2.1]
          refine Or.inr ⟨_, hwm, ?_⟩
          rw [Int.toNat_of_nonneg (hpos x hx).1]; exact hx
        · cases hn1 : nodes.head? with
          | none =>
            rw [List.head?_eq_none_iff] at hn1
            subst hn1; simp at hc
          | some a =>
            cases hn2 : nodes.getLast? with
            | none =>
              rw [List.getLast?_eq_none_iff] at hn2
              subst hn2; simp at hc
            | some b =>
              have ha := hpos a (List.mem_of_head? hn1)
              have hb := hpos b (List.mem_of_getLast? hn2)
              refine ⟨a, b, rfl, rfl, ?_, ?_⟩
              · rw [(hM _).2.2, Int.toNat_of_nonneg ha.1]
                cases all
                · simp only [Bool.false_eq_true, if_false]
                  exact Or.inr (Or.inl ⟨_, hwm, Or.inl hn1⟩)
                · simp only [if_true]
                  exact Or.inr ⟨_, hwm, List.mem_of_head? hn1⟩
              · rw [(hM _).2.2, Int.toNat_of_nonneg hb.1]
                cases all
                · simp only [Bool.false_eq_true, if_false]
                  exact Or.inr (Or.inl ⟨_, hwm, Or.inr hn2⟩)
                · simp only [if_true]
                  exact Or.inr ⟨_, hwm, List.mem_of_getLast? hn2⟩
      · cases hiw
    | _ => cases hiw
  · refine Nat.lt_of_le_of_lt (count_le_of_holds hI.modelling (l := (acceptedNodes (accepts f) items).map Int.toNat ++
      ((usedWays (fun id => use (BitVec.ofInt 64 id)) items).flatMap Prod.snd).map Int.toNat) ?_) ?_
    · intro x hx; exact List.mem_append.2 hx
    · simpa using hn
  · refine Nat.lt_of_le_of_lt (count_le_of_holds (S := fun x => On m.routing x = true) (l := (acceptedNodes (accepts f) items).map Int.toNat ++
      ((usedWays (fun id => use (BitVec.ofInt 64 id)) items).flatMap Prod.snd).map Int.toNat) ?_ ?_) ?_
    · exact hI.routing.congr fun x => (on_holds hI.routing x).symm
    · intro x hx
      exact List.mem_append.2 ((on_holds hI.modelling x).1 (hsub x hx))
    · simpa using hn
  · refine Nat.lt_of_le_of_lt (count_le_of_holds hI.ways (l := (usedWays (fun id => use (BitVec.ofInt 64 id)) items).map (·.1.toNat)) ?_) ?_
    · intro x hx; exact hx
    · simpa using hc

/-- C60: both functions together. The mapping is computed from a file, then the graph is loaded with it from the same file (without
debug assertions). Ways with the same id have the same nodes; there are fewer than 2^32-1 nodes and ways. -/
theorem C60_mapping_and_graph {inflate : List Byte → Option (List Byte)} {required optional : List Str} {file : List Byte} {items : List OsmItem}
    (h : EncodesFile inflate required optional file items) (hid : ∀ i ∈ items, ¬ i.Reserved) (hg : ∀ i ∈ items, i.GoodIds)
    (hw : ∀ id nodes nodes' tags tags', OsmItem.way id nodes tags ∈ items → OsmItem.way id nodes' tags' ∈ items → nodes = nodes')
    (own : Bool) (k : Nat) (isRoutingNode : Option (Word → Tags → Bool)) (isWayUsed : Word → Tags → Bool) (all : Bool)
    (hn : (acceptedNodes (accepts isRoutingNode) items).length +
      ((usedWays (fun id t => isWayUsed (BitVec.ofInt 64 id) t) items).flatMap Prod.snd).length < invalidId)
    (hc : (usedWays (fun id t => isWayUsed (BitVec.ofInt 64 id) t) items).length < invalidId) :
    ∃ m, loadMapping inflate own k isRoutingNode isWayUsed all file = .ok m ∧
      MappingIs all (acceptedNodes (accepts isRoutingNode) items) (usedWays (fun id t => isWayUsed (BitVec.ofInt 64 id) t) items) m ∧
      ∀ (own' assumeOrdered : Bool), (assumeOrdered = true → items.Pairwise fun i j => kind i ≤ kind j) → ∀ (k' : Nat → Nat)
        (stdSort : SortFn) (junk : Nat → Word) (cb : WayCallback σ) (geo : Geometry) (u u' : σ) (arcs : List MapArc),
        graphArcs (On m.ways) (On m.routing) (onesBelow m.ways) (callbackOf cb) u items = some (u', arcs) →
        (∀ a ∈ arcs, (fl.toUnsigned (segmentLength fl items a.seg)).isSome) → (arcs.flatMap (storedNodes geo)).length < 2 ^ 31 →
        ∃ g arcs', loadGraph fl false inflate own' k' stdSort junk m cb u none assumeOrdered geo file = .ok (g, u') ∧
          arcs'.Perm arcs ∧ SortedArcsOf m arcs arcs' ∧ Shows items m geo arcs' g ∧ g.forbiddenFrom = [] ∧ g.forbiddenTo = [] := by
  obtain ⟨es, t, e, hr⟩ := C56_unordered_partial h hid own (c := ⟨isRoutingNode.isSome, true, false⟩) (Or.inr (Or.inl rfl)) k
  obtain ⟨m, e1, hf, hM⟩ := mapping_fits (all := all) hr rfl hg hw hn hc
  refine ⟨m, by unfold loadMapping Out.run; rw [e, e1], hM, ?_⟩
  intro own' assumeOrdered hord k' stdSort junk cb geo u u' arcs hA hu hb
  exact C60_routing_graph h hid hg hf (debug := false) (by simp) own' assumeOrdered hord k' stdSort junk hA hu hb

theorem forEach_none {β τ : Type} {f : τ → β → Option τ} {b : β} (hf : ∀ s, f s b = none) : ∀ {l : List β}, b ∈ l → ∀ s, forEach l s f = none
  | x :: l, hb, s => by
    rw [forEach]
    rcases List.mem_cons.1 hb with rfl | hb
    · rw [hf]; rfl
    · cases f s x with
      | none => rfl
      | some s => exact forEach_none hf hb s

/-- C60 needs the mapping to fit to the file: if a marked way begins with a node which is no modelling node, then the function
asks for the number of a node without a number (an assertion, or undefined behaviour). This happens for example if the file has two
versions of a way, and only one of them was accepted for the mapping. -/
theorem C60_unfitting_way_undefined {inflate : List Byte → Option (List Byte)} {required optional : List Str} {file : List Byte} {items : List OsmItem}
    (h : EncodesFile inflate required optional file items) (hid : ∀ i ∈ items, ¬ i.Reserved) (hg : ∀ i ∈ items, i.GoodIds)
    {m : IdMapping} (hm : ValidMapping m) (hc : total m.ways < invalidId) (debug : Bool)
    (own : Bool) (k : Nat → Nat) (stdSort : SortFn) (junk : Nat → Word) {cb : WayCallback σ} (geo : Geometry) (u : σ)
    {id : Int} {x : Int} {nodes : List Int} {tags : List (Str × Str)} (hway : OsmItem.way id (x :: nodes) tags ∈ items)
    (hmark : On m.ways id.toNat = true) (hx : On m.modelling x.toNat = false)
    (hopen : ∀ u l r, cb u (BitVec.ofInt 64 id) l (lookup tags) = some r → r.2 ≠ .closed) :
    loadGraph fl debug inflate own k stdSort junk m cb u none false geo file = .ub := by
  obtain ⟨⟨Bm, rm⟩, ⟨Br, rr⟩, ⟨Bw, rw'⟩⟩ := hm
  unfold loadGraph
  cases assertMapping debug m with
  | none => rfl
  | some _ =>
    obtain ⟨m1, e1, o1, _⟩ := IDMapper.new_spec rm
    obtain ⟨m2, e2, o2, _⟩ := IDMapper.new_spec rr
    obtain ⟨m3, e3, o3, _⟩ := IDMapper.new_spec rw'
    have emp : Mappers.new m = some ⟨m1, m2, m3⟩ := by simp only [Mappers.new, e1, e2, e3, Option.bind_eq_bind, Option.bind_some]
    rw [emp]
    simp only [Res.ofOption_some, Res.ok_bind]
    obtain ⟨es1, es2, es3, m', e, _, h2, _⟩ := read_ok h hid own (none : Option RestrictionDecoder).isSome false (by simp) k
    have hw2 : OsmItem.way id (x :: nodes) tags ∈ items.filter isWay := List.mem_filter.2 ⟨hway, rfl⟩
    obtain ⟨j, hj, ej⟩ := List.getElem_of_mem hw2
    have hj' : j < es2.length := by rw [h2.length_eq]; exact hj
    have hrep := List.Forall₂.get h2 hj' hj
    simp only [List.get_eq_getElem, ej] at hrep
    have hmem : es2[j] ∈ es1 ++ es2 ++ es3 := by simp
    generalize es2[j] = ev at hrep hmem
    cases ev with
    | way id' nodes' t =>
      obtain ⟨rfl, rfl, ht, _⟩ := hrep
      have hgi := hg _ hway
      have eid : (BitVec.ofInt 64 id).toNat = id.toNat := toNat_ofInt hgi.1
      rw [onF rw'] at hmark
      rw [onF rm] at hx
      rw [total_eq rw'] at hc
      have : ∀ s : Scan fl σ, scanEvent (wantedGeometry none geo) ⟨m1, m2, m3⟩ cb none s (.way (BitVec.ofInt 64 id) ((x :: nodes).map (BitVec.ofInt 64)) t) = none := by
        intro s
        obtain ⟨w, ew, mw⟩ := localOr_eq o3 hc id.toNat
        rw [if_pos hmark] at mw
        have hne : rk (at' Bw) id.toNat ≠ invalidId := by have := rk_lt_count hmark; omega
        simp only [scanEvent, scanWay, eid, map_toNat_ofInt hgi.2, tagsOf_show ht, ew, Option.bind_eq_bind, Option.bind_some, mw, if_neg hne]
        cases hcb : cb s.user (BitVec.ofInt 64 id) (rk (at' Bw) id.toNat) (lookup tags) with
        | none => rfl
        | some r =>
          simp only [Option.bind_some, if_neg (hopen _ _ _ hcb), List.map_cons, List.head?_cons, o1.base.toLocal_unmapped hx]
          rfl
      unfold Out.run
      rw [e, forEach_none this hmem]
      rfl
    | _ => exact absurd hrep (by simp [Reported])

/-- C60 does not hold in builds with assertions: for a file with only the way 1-5-3 the mapping is computed, but the assertion that
the routing nodes are modelling nodes compares bit vectors with different sizes (8 and 4), which is not allowed. -/
theorem C60_assertion_aborts {inflate : List Byte → Option (List Byte)} {required optional : List Str} {file : List Byte}
    (h : EncodesFile inflate required optional file [.way 7 [1, 5, 3] []]) (own : Bool) (k : Nat) :
    ∃ m, loadMapping inflate own k none (fun _ _ => true) false file = .ok m ∧ ValidMapping m ∧
      ∀ (own' : Bool) (k' : Nat → Nat) (stdSort : SortFn) (junk : Nat → Word) (cb : WayCallback σ) (decoder : Option RestrictionDecoder) (u : σ)
        (assumeOrdered : Bool) (geo : Geometry),
        loadGraph fl true inflate own' k' stdSort junk m cb u decoder assumeOrdered geo file = .ub := by
  obtain ⟨es, t, e, hr⟩ := C56_unordered_partial h (by simp [OsmItem.Reserved]) own (c := ⟨false, true, false⟩) (Or.inr (Or.inl rfl)) k
  rw [List.filter_cons_of_pos (by rfl), List.filter_nil] at hr
  obtain ⟨m, e1, hI⟩ := mapEvents_ok (isRoutingNode := none) (isWayUsed := fun _ _ => true) (all := false) hr (by
    intro i hi; rw [List.mem_singleton] at hi; subst hi; simp [OsmItem.GoodIds]) mapInv_empty
  have rep : ∀ {v : BitVector} {S : Nat → Prop}, Holds v S → ∃ B, v.Rep B := fun ⟨B, h, _⟩ => ⟨B, h⟩
  have hv : ValidMapping m := ⟨rep hI.modelling, rep hI.routing, rep hI.ways⟩
  have hs : (m.modelling.size, m.routing.size) = (8, 4) := by
    cases hr with
    | @cons ev _ es' _ hr1 hr2 =>
      cases hr2
      cases ev with
      | way id' nodes' t' =>
        obtain ⟨rfl, rfl, _, _⟩ := hr1
        have : (forEach [OsmEvent.way (BitVec.ofInt 64 7) ([1, 5, 3].map (BitVec.ofInt 64)) t'] IdMapping.empty
            (mapEvent none (fun _ _ => true) false)).map (fun m => (m.modelling.size, m.routing.size)) = some (8, 4) := by
          simp only [forEach, mapEvent]
          decide +kernel
        rw [e1] at this
        simpa using this
      | _ => exact absurd hr1 (by simp [Reported])
  simp only [Prod.mk.injEq] at hs
  refine ⟨m, by unfold loadMapping Out.run; rw [show (none : Option (Word → Tags → Bool)).isSome = false from rfl, e, e1], hv, ?_⟩
  intro own' k' stdSort junk cb decoder u assumeOrdered geo
  obtain ⟨⟨Bm, rm⟩, ⟨Br, rr⟩, _⟩ := hv
  have : assertMapping true m = none := by
    obtain ⟨v1, ev1, r1⟩ := rm.copy
    have c : decide (v1.size = m.routing.size) = false := by
      rw [r1.size, ← rm.size, hs.1, hs.2]; rfl
    unfold assertMapping
    simp only [if_true, ev1, Option.bind_eq_bind, Option.bind_some]
    unfold BitVector.orEq
    simp only [r1.pad, rr.pad, Option.bind_eq_bind, Option.bind_some, c]
    rfl
  unfold loadGraph
  rw [this]
  rfl

/-- Whole numbers in place of floating point numbers. -/
def intOps : FloatOps := ⟨Int, Int, 0, id, fun a b c d => |a - c| + |b - d|, 0, (· + ·), fun d => some d.toNat, fun _ _ _ _ => true⟩

/-- The arcs of the way 7 of Props/OsmPbf if 3 and 4 are routing nodes; the callback counts the ways. -/
theorem exArcs (localId : Nat → Nat) : graphArcs (fun w => decide (w = 7)) (fun x => decide (x = 3 ∨ x = 4)) localId
    (callbackOf fun (n : Nat) _ _ _ => some (n + 1, .openInBoth)) 0 exItems =
    some (1, [⟨7, ⟨3, [5], 4⟩, false⟩, ⟨7, ⟨3, [5], 4⟩, true⟩]) := rfl

theorem exMarks {m : IdMapping} (hM : MappingIs false (acceptedNodes (accepts none) exItems) (usedWays (fun _ _ => true) exItems) m) :
    (On m.ways = fun w => decide (w = 7)) ∧ On m.routing = fun x => decide (x = 3 ∨ x = 4) := by
  have hu : usedWays (fun id t => true) exItems = [(7, [3, 5, 4])] := rfl
  have h1 : On m.ways = fun w => decide (w = 7) := by
    funext x
    have := (hM x).1
    rw [hu] at this
    simp only [List.mem_singleton, exists_eq_left] at this
    rw [Bool.eq_iff_iff, this]
    simp
    omega
  have h2 : On m.routing = fun x => decide (x = 3 ∨ x = 4) := by
    funext x
    have := (hM x).2.2
    rw [hu] at this
    rw [Bool.eq_iff_iff, this]
    have ha : acceptedNodes (accepts none) exItems = [] := rfl
    rw [ha]
    simp only [Bool.false_eq_true, if_false, IsRoutingNode, List.not_mem_nil, false_or, List.mem_singleton, exists_eq_left, List.head?_cons,
      List.flatMap_cons, List.flatMap_nil, List.append_nil, List.getLast?_cons_cons, List.getLast?_singleton, Option.some.injEq,
      List.count_cons, List.count_nil, decide_eq_true_eq, beq_iff_eq]
    constructor
    · rintro ((h | h) | h)
      · omega
      · omega
      · split_ifs at h <;> omega
    · rintro (rfl | rfl) <;> simp
  exact ⟨h1, h2⟩

/-- The hypotheses are satisfiable: both functions applied to the file of Props/OsmPbf, whose way 7 has the nodes 3, 5, 4. The node
4 is not in the file. -/
example : ∃ m g arcs', loadMapping (fun _ => none) false 0 none (fun _ _ => true) false exFile = .ok m ∧
    loadGraph intOps false (fun _ => none) false (fun _ => 0) (fun _ _ l => l) (fun _ => 0) m (fun (n : Nat) _ _ _ => some (n + 1, .openInBoth)) 0 none true
      .uncompressed exFile = .ok (g, 1) ∧ Shows exItems m .uncompressed arcs' g ∧
      arcs'.Perm [⟨7, ⟨3, [5], 4⟩, false⟩, ⟨7, ⟨3, [5], 4⟩, true⟩] := by
  obtain ⟨m, e, hM, h⟩ := C60_mapping_and_graph (fl := intOps) (σ := Nat) exFile_ok (by
      intro i hi
      simp only [exItems, List.mem_cons, List.not_mem_nil, or_false] at hi
      rcases hi with rfl | rfl | rfl | rfl <;> simp [OsmItem.Reserved]) exGood (by
      intro id n n' t t' h1 h2
      simp [exItems] at h1 h2
      rw [h1.2.1, h2.2.1]) false 0 none (fun _ _ => true) false (by decide) (by decide)
  obtain ⟨h1, h2⟩ := exMarks hM
  obtain ⟨g, arcs', e2, hp, _, hs, _⟩ := h false true (by intro _; simp [exItems, kind]) (fun _ => 0) (fun _ _ l => l) (fun _ => 0) (fun n _ _ _ => some (n + 1, .openInBoth))
    .uncompressed 0 1 _ (by rw [h1, h2]; exact exArcs _) (by intro a _; rfl) (by decide)
  exact ⟨m, g, arcs', e, e2, hs, hp⟩

example : segments (fun x => x % 2 == 1) [1, 2, 3, 4, 6, 1] = [⟨1, [2], 3⟩, ⟨3, [4, 6], 1⟩] := by decide

end RK.Props
