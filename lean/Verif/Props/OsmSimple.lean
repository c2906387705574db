import Verif.Proof.OsmSimple
import Verif.Props.OsmTurns
import Verif.Props.OsmProfile
/-! # C62: the graphs for cars, pedestrians and bicycles of an OpenStreetMap file -/
namespace RK.Props
open RK RK.Osm _root_.Spec RK.Spec BitVector

variable {fl : FloatOps} {σ : Type}

theorem accepted_none (items : List OsmItem) : acceptedNodes (accepts none) items = [] := by
  unfold acceptedNodes
  rw [List.filterMap_eq_nil_iff]
  intro i _
  cases i <;> simp [accepts]

theorem mapping_loads {inflate : List Byte → Option (List Byte)} {required optional : List Str} {file : List Byte} {items : List OsmItem}
    (h : EncodesFile inflate required optional file items) (hid : ∀ i ∈ items, ¬ i.Reserved) (hg : ∀ i ∈ items, i.GoodIds)
    (hw : UniqueWays items) (own : Bool) (k : Nat) (use : TagLookup → Bool) (all : Bool)
    (hn : ((usedWays (fun _ => use) items).flatMap Prod.snd).length < invalidId) (hc : (usedWays (fun _ => use) items).length < invalidId) :
    ∃ m, loadMapping inflate own k none (fun _ t => use t) all file = .ok m ∧ MappingFits m items ∧ MappingIs all [] (usedWays (fun _ => use) items) m := by
  obtain ⟨es, t, e, hr⟩ := C56_unordered_partial h hid own (c := ⟨(none : Option (Word → Tags → Bool)).isSome, true, false⟩) (Or.inr (Or.inl rfl)) k
  obtain ⟨m, e1, hf, hM⟩ := mapping_fits (f := none) (use := fun _ t => use t) (all := all) hr rfl hg (fun id n n' t t' h1 h2 => (hw id n n' t t' h1 h2).1)
    (by rw [accepted_none]; simpa using hn) hc
  rw [accepted_none] at hM
  exact ⟨m, by unfold loadMapping Out.run; rw [e, e1], hf, hM⟩

theorem marks_routing {all : Bool} {ways : List (Int × List Int)} {m : IdMapping} (h : MappingIs all [] ways m) : On m.routing = routingNode all ways := by
  funext x
  have := (h x).2.2
  unfold routingNode
  rw [Bool.eq_iff_iff, this]
  cases all <;> simp

theorem marks_ways {all : Bool} {use : TagLookup → Bool} {items : List OsmItem} (hg : ∀ i ∈ items, i.GoodIds) (hw : UniqueWays items) {m : IdMapping}
    (h : MappingIs all [] (usedWays (fun _ => use) items) m) (id : Int) (nodes : List Int) (tags : List (Str × Str)) (hi : OsmItem.way id nodes tags ∈ items) :
    On m.ways id.toNat = true ↔ 2 ≤ nodes.length ∧ use (lookup tags) = true := by
  have g := (hg _ hi).1
  rw [(h _).1]
  constructor
  · rintro ⟨w, hm, e⟩
    obtain ⟨i, hi', hiw⟩ := List.mem_filterMap.1 hm
    cases i with
    | way id' nodes' tags' =>
      simp only at hiw
      split at hiw
      · rename_i hc
        cases hiw
        have : id' = id := by simp only at e; omega
        subst this
        obtain ⟨rfl, rfl⟩ := hw _ _ _ _ _ hi hi'
        exact hc
      · cases hiw
    | _ => cases hiw
  · intro hc
    exact ⟨(id, nodes), List.mem_filterMap.2 ⟨_, hi, by simp only [if_pos hc]⟩, by simp only; omega⟩

theorem marks_inj {m : IdMapping} (h : ValidMapping m) (x y : Nat) (hx : On m.ways x = true) (hy : On m.ways y = true)
    (e : onesBelow m.ways x = onesBelow m.ways y) : x = y := by
  obtain ⟨_, _, ⟨Bw, rw'⟩⟩ := h
  rw [onF rw'] at hx hy
  rw [onesF rw'] at e
  exact rk_inj hx hy e

theorem marks_lt {m : IdMapping} (h : ValidMapping m) (x : Nat) (hx : On m.ways x = true) : onesBelow m.ways x < total m.ways := by
  obtain ⟨_, _, ⟨Bw, rw'⟩⟩ := h
  rw [onF rw'] at hx
  rw [onesF rw', total_eq rw']
  exact rk_lt_count hx

theorem marks_count {m : IdMapping} {items : List OsmItem} (h : MappingFits m items) : ∃ n, m.ways.populationCount = some n ∧ n % u32 = total m.ways := by
  obtain ⟨_, _, ⟨Bw, rw'⟩⟩ := h.valid
  refine ⟨_, rw'.populationCount, ?_⟩
  rw [← total_eq rw']
  have := h.wayCount
  have : u32 = 4294967296 := rfl
  have : invalidId = 4294967295 := rfl
  exact Nat.mod_eq_of_lt (by omega)

/-- The arcs of cars. -/
def carArcs (all : Bool) (items : List OsmItem) : List MapArc :=
  networkArcs all usedByCars (fun t => dirForwards (carDirection t)) (fun t => dirBackwards (carDirection t)) items

/-- The arcs of pedestrians, who may use all ways in both directions. -/
def pedestrianArcs (all : Bool) (items : List OsmItem) : List MapArc :=
  networkArcs all usedByPedestrians (fun _ => true) (fun _ => true) items

/-- The arcs of bicycles. -/
def bicycleArcs (all : Bool) (items : List OsmItem) : List MapArc :=
  networkArcs all usedByBicycles (fun t => dirForwards (bicycleDirection t)) (fun t => dirBackwards (bicycleDirection t)) items

/-- A way of the file which consists of the arc and possibly more. -/
def WayOf (items : List OsmItem) (a : MapArc) (tags : List (Str × Str)) : Prop :=
  ∃ id nodes, OsmItem.way id nodes tags ∈ items ∧ id = a.way

theorem ends_length {α : Type} (l : List α) : (ends l).length ≤ 2 := by
  unfold ends
  cases l.head? <;> split <;> cases l.getLast? <;> simp

theorem stored_length (arcs : List MapArc) : (arcs.flatMap (storedNodes .firstAndLast)).length ≤ 2 * arcs.length := by
  induction arcs with
  | nil => simp
  | cons a arcs ih =>
    rw [List.flatMap_cons, List.length_append, List.length_cons]
    have : (storedNodes .firstAndLast a).length ≤ 2 := ends_length _
    omega

theorem stored_none (arcs : List MapArc) : (arcs.flatMap (storedNodes .none)).length = 0 := by
  induction arcs with
  | nil => rfl
  | cons a arcs ih => rw [List.flatMap_cons, List.length_append, ih]; rfl

/-- A restriction of the file is always decoded. -/
theorem C62_restrictions_decoded {items : List OsmItem} (h : GoodMembers items) : ∃ rs, relationData (decoderOf decodeRestrictions) items = some rs :=
  relations_total h

/-- C62 for cars: `simple_load_osm_car_routing_graph_from_pbf` returns the graph of the arcs that cars may use (C60) with the forbidden
turns (C61) and with the travel times at the speeds of the ways. Without debug assertions; the lengths of the arcs can be converted
to integers, there are fewer than 2^30 arcs. -/
theorem C62_car_graph {inflate : List Byte → Option (List Byte)} {required optional : List Str} {file : List Byte} {items : List OsmItem}
    (h : EncodesFile inflate required optional file items) (hid : ∀ i ∈ items, ¬ i.Reserved) (hg : ∀ i ∈ items, i.GoodIds) (hw : UniqueWays items)
    (own own' : Bool) (k : Nat) (k' : Nat → Nat) {stdSort : SortFn} (hs : StdSort stdSort) (junk : Nat → Word) (all : Bool)
    (hn : ((usedWays (fun _ => usedByCars) items).flatMap Prod.snd).length < invalidId)
    (hc : (usedWays (fun _ => usedByCars) items).length < invalidId)
    (hu : ∀ a ∈ carArcs all items, (fl.toUnsigned (segmentLength fl items a.seg)).isSome) (hl : (carArcs all items).length < 2 ^ 30)
    {rs : List TurnRestriction} (hR : relationData (decoderOf decodeRestrictions) items = some rs)
    {degree : Nat} (hdeg : ∀ v, (carArcs all items).countP (fun a => decide (a.tail = v)) ≤ degree)
    (hl2 : rs.length * ((carArcs all items).length * degree + degree + 1) + 511 < 2 ^ 64) :
    ∃ (g : CarGraph fl) (m : IdMapping) (arcs : List MapArc) (r : RoutingGraph fl) (inc : Nat → Nat → Nat),
      simpleCar fl false inflate own own' k k' stdSort junk all file = .ok g ∧
      MappingIs all [] (usedWays (fun _ => usedByCars) items) m ∧
      arcs.Perm (carArcs all items) ∧ SortedArcsOf m (carArcs all items) arcs ∧ Shows items m .firstAndLast arcs r ∧
      g.firstOut = r.firstOut ∧ g.head = r.head ∧ g.geoDistance = r.geoDistance ∧ g.latitude = r.latitude ∧ g.longitude = r.longitude ∧
      g.travelTime.length = arcs.length ∧
      (∀ (i : Nat) a tags v d, arcs[i]? = some a → WayOf items a tags → waySpeed (lookup tags) = some v → g.geoDistance[i]? = some d → d ≤ 238609 →
        g.travelTime[i]? = some (d * 3600 / v)) ∧
      Chooses arcs inc ∧ g.forbiddenFrom.length = g.forbiddenTo.length ∧
      (g.forbiddenFrom.zip g.forbiddenTo).Pairwise (fun p q => p.1 < q.1 ∨ (p.1 = q.1 ∧ p.2 < q.2)) ∧
      ∀ f t, (f, t) ∈ g.forbiddenFrom.zip g.forbiddenTo ↔ ForbiddenTurn fl items arcs inc rs f t := by
  obtain ⟨m, em, hf, hM⟩ := mapping_loads h hid hg hw own k usedByCars all hn hc
  obtain ⟨n, en, hn'⟩ := marks_count hf
  have hval : ∀ t, ∃ v, waySpeed t = some v ∧ 0 < v := fun t => by
    obtain ⟨v, e, hv, _⟩ := C46_speed_positive t
    exact ⟨v, e, hv⟩
  choose speed hsp hpos using hval
  have hmk := marks_ways hg hw hM
  obtain ⟨u', eA, hlen, hvals⟩ := graphArcs_values (marked := On m.ways) (routing := On m.routing) (localId := onesBelow m.ways) (cb := carCallback)
    (use := usedByCars) (val := speed) (dir := carDirection) (by
      intro u id w t
      simp only [carCallback, hsp, Option.bind_eq_bind, Option.bind_some]) hw hg hmk
    (marks_inj hf.valid) (marks_lt hf.valid) items [] rfl (u := List.replicate (n % u32) 0) (by simp [hn']) (by simp)
  have eA : graphArcs (On m.ways) (On m.routing) (onesBelow m.ways) (callbackOf carCallback) (List.replicate (n % u32) 0) items =
    some (u', carArcs all items) := by
    rw [eA, marks_routing hM]; rfl
  obtain ⟨g, arcs, inc, eg, h1, h2, h3, h4, h5, h6, h7⟩ := C61_forbidden_turns (fl := fl) h hid hg hf (debug := false) (by simp) own' false (by simp) k' hs junk
    (geo := .none) eA hu (by rw [if_pos rfl]; have := stored_length (carArcs all items); omega) (by omega) hR hdeg hl2
  rw [if_pos rfl] at h3
  have hwl : g.way.length = g.geoDistance.length := by
    rw [h3.way, List.length_map, h3.distance.length_eq]
  have hmem : ∀ a ∈ arcs, ∃ id nodes tags, OsmItem.way id nodes tags ∈ items ∧ On m.ways id.toNat = true ∧ a.way = id.toNat := by
    intro a ha
    obtain ⟨id, nodes, tags, a1, a2, a3, _⟩ := graphArcs_mem eA a (h1.mem_iff.1 ha)
    exact ⟨id, nodes, tags, a1, a2, a3⟩
  obtain ⟨tt, et, hl3, ht⟩ := C46_travel_times g.geoDistance g.way u' hwl (by
      intro w hw'
      rw [h3.way] at hw'
      obtain ⟨a, ha, rfl⟩ := List.mem_map.1 hw'
      obtain ⟨id, nodes, tags, a1, a2, a3⟩ := hmem a ha
      rw [hlen, a3]; exact marks_lt hf.valid _ a2) (by
      intro w hw' v hv
      rw [h3.way] at hw'
      obtain ⟨a, ha, rfl⟩ := List.mem_map.1 hw'
      obtain ⟨id, nodes, tags, a1, a2, a3⟩ := hmem a ha
      have := hvals id nodes tags a1 a2
      rw [← a3] at this
      have hv : u'[onesBelow m.ways a.way]? = some v := hv
      rw [this] at hv
      cases hv
      exact hpos _)
  refine ⟨⟨g.firstOut, g.head, tt, g.geoDistance, g.latitude, g.longitude, g.forbiddenFrom, g.forbiddenTo⟩, m, arcs, g, inc, ?_, hM, h1, h2, h3,
    rfl, rfl, rfl, rfl, rfl, ?_, ?_, h4, h5, h6, h7⟩
  · unfold simpleCar
    rw [em]
    simp only [Res.ok_bind, en, Res.ofOption_some]
    rw [eg]
    simp only [Res.ok_bind, et, Res.ofOption_some, Bool.not_false, Bool.true_or, check_true]
  · rw [hl3, h3.distance.length_eq]
  · rintro i a tags v d hi ⟨id, nodes, hm, e⟩ hv hd hd'
    have ha : a ∈ arcs := List.mem_of_getElem? hi
    obtain ⟨id', nodes', tags', a1, a2, a3⟩ := hmem a ha
    have hg1 := (hg _ hm).1
    have hg2 := (hg _ a1).1
    have : id' = id := by omega
    subst this
    obtain ⟨rfl, rfl⟩ := hw _ _ _ _ _ hm a1
    refine ht i d (onesBelow m.ways a.way) v hd ?_ ?_ hd'
    · change g.way[i]? = _
      rw [h3.way, List.getElem?_map, hi]; rfl
    · have := hvals _ _ _ a1 a2
      rw [a3]
      change u'[_]? = _
      rw [this]
      have h := hsp (lookup tags)
      rw [hv] at h
      exact h.symm

/-- C62 for pedestrians. -/
theorem C62_pedestrian_graph {inflate : List Byte → Option (List Byte)} {required optional : List Str} {file : List Byte} {items : List OsmItem}
    (h : EncodesFile inflate required optional file items) (hid : ∀ i ∈ items, ¬ i.Reserved) (hg : ∀ i ∈ items, i.GoodIds) (hw : UniqueWays items)
    (own own' : Bool) (k : Nat) (k' : Nat → Nat) (stdSort : SortFn) (junk : Nat → Word) (all : Bool)
    (hn : ((usedWays (fun _ => usedByPedestrians) items).flatMap Prod.snd).length < invalidId)
    (hc : (usedWays (fun _ => usedByPedestrians) items).length < invalidId)
    (hu : ∀ a ∈ pedestrianArcs all items, (fl.toUnsigned (segmentLength fl items a.seg)).isSome) :
    ∃ (g : PedestrianGraph fl) (m : IdMapping) (arcs : List MapArc) (r : RoutingGraph fl),
      simplePedestrian fl false inflate own own' k k' stdSort junk all file = .ok g ∧
      MappingIs all [] (usedWays (fun _ => usedByPedestrians) items) m ∧
      arcs.Perm (pedestrianArcs all items) ∧ SortedArcsOf m (pedestrianArcs all items) arcs ∧ Shows items m .none arcs r ∧
      g.firstOut = r.firstOut ∧ g.head = r.head ∧ g.geoDistance = r.geoDistance ∧ g.latitude = r.latitude ∧ g.longitude = r.longitude := by
  obtain ⟨m, em, hf, hM⟩ := mapping_loads h hid hg hw own k usedByPedestrians all hn hc
  have eA := graphArcs_pure (marked := On m.ways) (routing := On m.routing) (localId := onesBelow m.ways) (cb := pedestrianCallback)
    (use := usedByPedestrians) (dir := fun _ => .openInBoth) (fun _ _ _ _ => rfl) (marks_ways hg hw hM)
  have eA : graphArcs (On m.ways) (On m.routing) (onesBelow m.ways) (callbackOf pedestrianCallback) () items = some ((), pedestrianArcs all items) := by
    rw [eA, marks_routing hM]; rfl
  obtain ⟨g, arcs, eg, h1, h2, h3, _⟩ := C60_routing_graph (fl := fl) h hid hg hf (debug := false) (by simp) own' false (by simp) k' stdSort junk
    (geo := .none) eA hu (by rw [stored_none]; decide)
  refine ⟨⟨g.firstOut, g.head, g.geoDistance, g.latitude, g.longitude⟩, m, arcs, g, ?_, hM, h1, h2, h3, rfl, rfl, rfl, rfl, rfl⟩
  unfold simplePedestrian
  rw [em]
  simp only [Res.ok_bind]
  rw [eg]
  rfl

/-- C62 for bicycles: with the comfort levels of the ways. -/
theorem C62_bicycle_graph {inflate : List Byte → Option (List Byte)} {required optional : List Str} {file : List Byte} {items : List OsmItem}
    (h : EncodesFile inflate required optional file items) (hid : ∀ i ∈ items, ¬ i.Reserved) (hg : ∀ i ∈ items, i.GoodIds) (hw : UniqueWays items)
    (own own' : Bool) (k : Nat) (k' : Nat → Nat) (stdSort : SortFn) (junk : Nat → Word) (all : Bool)
    (hn : ((usedWays (fun _ => usedByBicycles) items).flatMap Prod.snd).length < invalidId)
    (hc : (usedWays (fun _ => usedByBicycles) items).length < invalidId)
    (hu : ∀ a ∈ bicycleArcs all items, (fl.toUnsigned (segmentLength fl items a.seg)).isSome) :
    ∃ (g : BicycleGraph fl) (m : IdMapping) (arcs : List MapArc) (r : RoutingGraph fl),
      simpleBicycle fl false inflate own own' k k' stdSort junk all file = .ok g ∧
      MappingIs all [] (usedWays (fun _ => usedByBicycles) items) m ∧
      arcs.Perm (bicycleArcs all items) ∧ SortedArcsOf m (bicycleArcs all items) arcs ∧ Shows items m .none arcs r ∧
      g.firstOut = r.firstOut ∧ g.head = r.head ∧ g.geoDistance = r.geoDistance ∧ g.latitude = r.latitude ∧ g.longitude = r.longitude ∧
      g.comfort.length = arcs.length ∧
      ∀ (i : Nat) a tags, arcs[i]? = some a → WayOf items a tags → g.comfort[i]? = some (bicycleComfort (lookup tags)) := by
  obtain ⟨m, em, hf, hM⟩ := mapping_loads h hid hg hw own k usedByBicycles all hn hc
  obtain ⟨n, en, hn'⟩ := marks_count hf
  have hmk := marks_ways hg hw hM
  have hmod : ∀ t, bicycleComfort t % 256 = bicycleComfort t := fun t => Nat.mod_eq_of_lt (by have := (C57_comfort_level t).1; omega)
  obtain ⟨u', eA, hlen, hvals⟩ := graphArcs_values (marked := On m.ways) (routing := On m.routing) (localId := onesBelow m.ways) (cb := bicycleCallback)
    (use := usedByBicycles) (val := bicycleComfort) (dir := bicycleDirection) (by
      intro u id w t
      simp only [bicycleCallback, hmod, Option.bind_eq_bind]) hw hg hmk
    (marks_inj hf.valid) (marks_lt hf.valid) items [] rfl (u := List.replicate (n % u32) 0) (by simp [hn']) (by simp)
  have eA : graphArcs (On m.ways) (On m.routing) (onesBelow m.ways) (callbackOf bicycleCallback) (List.replicate (n % u32) 0) items =
    some (u', bicycleArcs all items) := by
    rw [eA, marks_routing hM]; rfl
  obtain ⟨g, arcs, eg, h1, h2, h3, _⟩ := C60_routing_graph (fl := fl) h hid hg hf (debug := false) (by simp) own' false (by simp) k' stdSort junk
    (geo := .none) eA hu (by rw [stored_none]; decide)
  have hmem : ∀ a ∈ arcs, ∃ id nodes tags, OsmItem.way id nodes tags ∈ items ∧ On m.ways id.toNat = true ∧ a.way = id.toNat := by
    intro a ha
    obtain ⟨id, nodes, tags, a1, a2, a3, _⟩ := graphArcs_mem eA a (h1.mem_iff.1 ha)
    exact ⟨id, nodes, tags, a1, a2, a3⟩
  have ec := arcComfort_ok (comfort := u') (way := g.way) (by
      intro w hw'
      rw [h3.way] at hw'
      obtain ⟨a, ha, rfl⟩ := List.mem_map.1 hw'
      obtain ⟨id, nodes, tags, a1, a2, a3⟩ := hmem a ha
      rw [hlen, a3]; exact marks_lt hf.valid _ a2)
  have hlen2 : g.way.length = g.head.length := by rw [h3.way, h3.head, List.length_map, List.length_map]
  refine ⟨⟨g.firstOut, g.head, g.geoDistance, g.latitude, g.longitude, g.way.map fun w => u'.getD w 0⟩, m, arcs, g, ?_, hM, h1, h2, h3,
    rfl, rfl, rfl, rfl, rfl, ?_, ?_⟩
  · unfold simpleBicycle
    rw [em]
    simp only [Res.ok_bind, en, Res.ofOption_some]
    rw [eg]
    simp only [Res.ok_bind, ← hlen2, ec, Res.ofOption_some]
  · rw [List.length_map, h3.way, List.length_map]
  · rintro i a tags hi ⟨id, nodes, hm, e⟩
    obtain ⟨id', nodes', tags', a1, a2, a3⟩ := hmem a (List.mem_of_getElem? hi)
    have hg1 := (hg _ hm).1
    have hg2 := (hg _ a1).1
    have : id' = id := by omega
    subst this
    obtain ⟨rfl, rfl⟩ := hw _ _ _ _ _ hm a1
    change (g.way.map _)[i]? = _
    rw [h3.way, List.getElem?_map, List.getElem?_map, hi]
    simp only [Option.map_some, a3, List.getD_eq_getElem?_getD, hvals _ _ _ a1 a2, Option.getD_some]

/-! ### An example -/

/-- The strings of the example. -/
def roadStrings : List Str := [[], text "highway", text "residential", text "restriction", text "no_u_turn", text "from", text "via", text "to"]

def roadTags : List (Str × Str) := [(text "highway", text "residential")]
def ruleTags : List (Str × Str) := [(text "restriction", text "no_u_turn")]

/-- The way 7 with the nodes 3, 5, 4. -/
def roadWay : List Byte := smallMessage [.varint 1 7, .bytes 2 [1#8], .bytes 3 [2#8], .bytes 8 [6#8, 4#8, 1#8]]

theorem roadWay_ok : EncodesWay roadStrings roadWay 7 [3, 5, 4] roadTags :=
  ⟨_, [(1, 2)], smallMessage_ok (by decide), by decide, by decide, Or.inr ⟨_, by decide, smallPacked (xs := [1]) (by decide)⟩,
    Or.inr ⟨_, by decide, smallPacked (xs := [2]) (by decide)⟩, ⟨by decide, .cons ⟨rfl, rfl⟩ .nil⟩,
    Or.inr ⟨_, by decide, smallPacked (xs := [6, 4, 1]) (by decide)⟩⟩

/-- The relation 9: no U-turn at the node 4 of the way 7. -/
def roadRule : List Byte := smallMessage [.varint 1 9, .bytes 2 [3#8], .bytes 3 [4#8], .bytes 8 [5#8, 6#8, 7#8], .bytes 9 [14#8, 5#8, 6#8], .bytes 10 [1#8, 0#8, 1#8]]

def ruleMembers : List (Nat × Int × Str) := [(1, 7, text "from"), (0, 4, text "via"), (1, 7, text "to")]

theorem roadRule_ok : EncodesRelation roadStrings roadRule 9 ruleMembers ruleTags :=
  ⟨_, [(3, 4)], [5, 6, 7], smallMessage_ok (by decide), by decide, by decide, Or.inr ⟨_, by decide, smallPacked (xs := [3]) (by decide)⟩,
    Or.inr ⟨_, by decide, smallPacked (xs := [4]) (by decide)⟩, ⟨by decide, .cons ⟨rfl, rfl⟩ .nil⟩,
    Or.inr ⟨_, by decide, smallPacked (xs := [5, 6, 7]) (by decide)⟩, .cons rfl (.cons rfl (.cons rfl .nil)),
    Or.inr ⟨_, by decide, smallPacked (xs := [14, 5, 6]) (by decide)⟩, Or.inr ⟨_, by decide, smallPacked (xs := [1, 0, 1]) (by decide)⟩, by decide⟩

theorem roadDense_ok : EncodesDense roadStrings exDense exNodes :=
  ⟨_, _, _, _, smallMessage_ok (by decide), by decide, smallPacked (xs := [6, 4]) (by decide), by decide, smallPacked (xs := [20, 2]) (by decide),
    by decide, smallPacked (xs := [40, 1]) (by decide), Or.inl ⟨by decide, by decide⟩, by
      intro n hn
      simp only [exNodes, List.mem_cons, List.not_mem_nil, or_false] at hn
      rcases hn with rfl | rfl <;> exact ⟨⟨by decide, .nil⟩, by simp⟩⟩

/-- A block with two nodes, the way and the relation. -/
def roadBlock : List Byte :=
  smallMessage [.bytes 1 (smallMessage (roadStrings.map (Field.bytes 1))),
    .bytes 2 (smallMessage [.bytes 2 exDense, .bytes 3 roadWay]), .bytes 2 (smallMessage [.bytes 4 roadRule])]

/-- The objects in the block. -/
def roadItems : List OsmItem :=
  [.node 3 1000 2000 [], .node 5 1100 1900 [], .way 7 [3, 5, 4] roadTags, .relation 9 ruleMembers ruleTags]

theorem roadGroup : GroupIs ⟨roadStrings, 100, 0, 0⟩ false [.bytes 2 exDense, .bytes 3 roadWay] (roadItems.take 3) :=
  GroupIs.dense (h := ⟨roadStrings, 100, 0, 0⟩) (nodes := exNodes) (items := [.way 7 [3, 5, 4] roadTags]) roadDense_ok
    (.way roadWay_ok .nil)

theorem roadBlock_ok : EncodesBlock ⟨roadStrings, 100, 0, 0⟩ false roadBlock roadItems :=
  ⟨_, _, [roadItems.take 3, roadItems.drop 3], smallMessage_ok (by decide), by decide, smallMessage_ok (by decide), by decide, by decide, Or.inl ⟨by decide, rfl⟩,
    by decide, by decide, by decide, Or.inl ⟨by decide, by decide⟩, Or.inl ⟨by decide, by decide⟩,
    .cons ⟨_, smallMessage_ok (by decide), roadGroup⟩
      (.cons ⟨_, smallMessage_ok (by decide), .relation roadRule_ok .nil⟩ .nil), rfl⟩

/-- A file with the block. -/
def roadFile : List Byte :=
  let hb := smallMessage [.varint 2 exHeader.length, .bytes 1 exHeader]
  let hh := smallMessage [.bytes 1 (text "OSMHeader"), .varint 3 hb.length]
  let db := smallMessage [.varint 2 roadBlock.length, .bytes 1 roadBlock]
  let dh := smallMessage [.bytes 1 (text "OSMData"), .varint 3 db.length]
  (bigEndian hh.length ++ hh ++ hb) ++ ((bigEndian dh.length ++ dh ++ db) ++ [])

theorem roadFile_ok : EncodesFile (fun _ => none) [text "DenseNodes", text "HistoricalInformation"] [text "Sort.Type_then_ID"] roadFile roadItems := by
  refine ⟨_, _, _, _, _, rfl, ⟨_, _, rfl, smallMessage_ok (by decide), by decide, by decide, by decide, by decide⟩,
    ⟨_, smallMessage_ok (by decide), by decide, by decide, by decide, by decide, Or.inl ⟨by decide, by decide⟩⟩,
    smallMessage_ok (fs := [.bytes 4 (text "DenseNodes"), .bytes 4 (text "HistoricalInformation"), .bytes 5 (text "Sort.Type_then_ID")]) (by decide), by decide, by decide, ?_⟩
  exact .data (others := []) ⟨_, _, rfl, smallMessage_ok (by decide +kernel), by decide +kernel, by decide +kernel, by decide +kernel, by decide +kernel⟩
    ⟨_, smallMessage_ok (by decide +kernel), by decide +kernel, by decide +kernel, by decide +kernel, by decide +kernel, Or.inl ⟨by decide +kernel, by decide +kernel⟩⟩ rfl rfl roadBlock_ok .nil

theorem roadUnique : UniqueWays roadItems := by
  intro id n n' t t' h1 h2
  simp [roadItems] at h1 h2
  exact ⟨by rw [h1.2.1, h2.2.1], by rw [h1.2.2, h2.2.2]⟩

theorem roadGood : ∀ i ∈ roadItems, i.GoodIds := by
  intro i hi
  simp only [roadItems, List.mem_cons, List.not_mem_nil, or_false] at hi
  rcases hi with rfl | rfl | rfl | rfl <;> simp [OsmItem.GoodIds]

theorem roadReserved : ∀ i ∈ roadItems, ¬ i.Reserved := by
  intro i hi
  simp only [roadItems, List.mem_cons, List.not_mem_nil, or_false] at hi
  rcases hi with rfl | rfl | rfl | rfl <;> simp [OsmItem.Reserved]

theorem roadArcs : carArcs false roadItems = [⟨7, ⟨3, [5], 4⟩, false⟩, ⟨7, ⟨3, [5], 4⟩, true⟩] ∧
    pedestrianArcs false roadItems = [⟨7, ⟨3, [5], 4⟩, false⟩, ⟨7, ⟨3, [5], 4⟩, true⟩] ∧
    bicycleArcs false roadItems = [⟨7, ⟨3, [5], 4⟩, false⟩, ⟨7, ⟨3, [5], 4⟩, true⟩] := by decide +kernel

/-- The hypotheses are satisfiable: the graph for cars of the example has two arcs, they take 144 milliseconds per metre, and the
U-turn at the node 4 is forbidden. -/
example : ∃ (g : CarGraph intOps) (arcs : List MapArc),
    simpleCar intOps false (fun _ => none) false true 0 (fun _ => 0) (fun _ less l => l.mergeSort fun a b => !less b a) (fun _ => 0) false roadFile = .ok g ∧
      arcs.Perm [⟨7, ⟨3, [5], 4⟩, false⟩, ⟨7, ⟨3, [5], 4⟩, true⟩] ∧
      (∀ i d : Nat, i < 2 → g.geoDistance[i]? = some d → d ≤ 238609 → g.travelTime[i]? = some (d * 3600 / 25)) ∧
      ∀ f t : Nat, arcs[f]? = some ⟨7, ⟨3, [5], 4⟩, false⟩ → arcs[t]? = some ⟨7, ⟨3, [5], 4⟩, true⟩ → (f, t) ∈ g.forbiddenFrom.zip g.forbiddenTo := by
  obtain ⟨g, m, arcs, r, inc, e, hM, hp, _, hS, _, _, _, _, _, _, ht, _, _, _, hf⟩ := C62_car_graph (fl := intOps) roadFile_ok roadReserved roadGood roadUnique
    false true 0 (fun _ => 0) exStdSort (fun _ => 0) false (by decide +kernel) (by decide +kernel) (by intro a _; rfl) (by rw [roadArcs.1]; decide)
    (rs := [⟨9, .prohibitive, .uTurn, 7, 4, 7⟩]) (by decide +kernel) (degree := 2) (by rw [roadArcs.1]; exact fun v => List.countP_le_length) (by rw [roadArcs.1]; decide)
  rw [roadArcs.1] at hp
  refine ⟨g, arcs, e, hp, ?_, ?_⟩
  · intro i d hi hd hd'
    have hi' : i < arcs.length := by rw [hp.length_eq]; exact hi
    have hm := hp.mem_iff.1 (List.getElem_mem hi')
    refine ht i _ roadTags 25 d (List.getElem?_eq_getElem hi') ⟨7, [3, 5, 4], by simp [roadItems], ?_⟩ (by decide +kernel) hd hd'
    simp only [List.mem_cons, List.not_mem_nil, or_false] at hm
    rcases hm with hm | hm <;> rw [hm] <;> rfl
  · intro f t hf' ht
    rw [hf]
    have hnd : arcs.Nodup := hp.nodup_iff.2 (by decide)
    refine ⟨_, List.mem_singleton.2 rfl, ⟨_, hf', rfl, rfl⟩, ⟨_, ht, rfl, rfl⟩, Or.inl ?_⟩
    have inj : ∀ {i j : Nat} {x : MapArc}, arcs[i]? = some x → arcs[j]? = some x → i = j := by
      intro i j x hi hj
      have hi' := rd_some_lt (v := arcs) hi
      exact (hnd.getElem_inj_iff (hi := hi') (hj := rd_some_lt (v := arcs) hj)).1 (by
        rw [List.getElem?_eq_getElem hi'] at hi
        rw [List.getElem?_eq_getElem (rd_some_lt (v := arcs) hj)] at hj
        rw [Option.some.injEq] at hi hj
        rw [hi, hj])
    rintro f' t' ⟨a, ha, _, ha2⟩ ⟨b, hb, _, hb2⟩
    have ma := hp.mem_iff.1 (List.mem_of_getElem? ha)
    have mb := hp.mem_iff.1 (List.mem_of_getElem? hb)
    simp only [List.mem_cons, List.not_mem_nil, or_false] at ma mb
    rcases ma with rfl | rfl
    · rcases mb with rfl | rfl
      · cases hb2
      · exact ⟨inj ha hf', inj hb ht⟩
    · cases ha2

example : ∃ g, simplePedestrian intOps false (fun _ => none) false true 0 (fun _ => 0) (fun _ _ l => l) (fun _ => 0) false roadFile = .ok g := by
  obtain ⟨g, _, _, _, e, _⟩ := C62_pedestrian_graph (fl := intOps) roadFile_ok roadReserved roadGood roadUnique
    false true 0 (fun _ => 0) (fun _ _ l => l) (fun _ => 0) false (by decide +kernel) (by decide +kernel) (by intro a _; rfl)
  exact ⟨g, e⟩

example : ∃ g : BicycleGraph intOps, simpleBicycle intOps false (fun _ => none) false true 0 (fun _ => 0) (fun _ _ l => l) (fun _ => 0) false roadFile = .ok g ∧
    g.comfort.length = 2 := by
  obtain ⟨g, _, arcs, _, e, _, hp, _, _, _, _, _, _, _, hl, _⟩ := C62_bicycle_graph (fl := intOps) roadFile_ok roadReserved roadGood roadUnique
    false true 0 (fun _ => 0) (fun _ _ l => l) (fun _ => 0) false (by decide +kernel) (by decide +kernel) (by intro a _; rfl)
  exact ⟨g, e, by rw [hl, hp.length_eq, roadArcs.2.2]; rfl⟩

end RK.Props
