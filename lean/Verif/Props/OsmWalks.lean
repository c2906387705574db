import Verif.Props.OsmRoutes
/-! # C88: from an OpenStreetMap file to a route for pedestrians and bicycles -/
namespace RK.Props
open RK RK.Osm _root_.Spec RK.Spec BitVector

variable {fl : FloatOps}

/-- The length of an arc of the file in metres. -/
def ArcLength (fl : FloatOps) (items : List OsmItem) (a : MapArc) (d : Nat) : Prop :=
  fl.toUnsigned (segmentLength fl items a.seg) = some d

/-- What a ride along an arc costs if `f` tells the costs of a length on a way with a comfort level. -/
def RideCost (fl : FloatOps) (items : List OsmItem) (f : Nat → Nat → Nat) (a : MapArc) (c : Nat) : Prop :=
  ∃ tags d, WayOf items a tags ∧ ArcLength fl items a d ∧ c = f d (bicycleComfort (lookup tags))

/-- The nodes of the graph: the routing nodes of the ways that may be used, by increasing id. -/
def RoutingNodesOf (use : TagLookup → Bool) (all : Bool) (items : List OsmItem) (ids : List Nat) : Prop :=
  ids.Pairwise (· < ·) ∧ ∀ x, x ∈ ids ↔ routingNode all (usedWays (fun _ => use) items) x = true

/-- Every hierarchy that is built for the graph (with any limit of the witness searches, and light arcs as in C22) answers all queries
with cheapest trips along the arcs of the map. -/
def HierarchyAnswers (arcs : List MapArc) (cost : MapArc → Nat → Prop) (ids tail head weight : List Nat) : Prop :=
  ∀ (asserts : Bool) (maxPop : Nat) (junkF junkB : Nat → Word) (ch : Ch),
    Ch.build asserts ids.length tail head weight maxPop junkF junkB = some ch →
    (∀ w ∈ ch.forward.weight, w ≤ lightArc) → (∀ w ∈ ch.backward.weight, w ≤ lightArc) →
    ∀ (s t x y : Nat), ids[s]? = some x → ids[t]? = some y →
      ∃ q1 q2 q3 d nodes, (ChQuery.new ch).addSource s 0 = some q1 ∧ q1.addTarget t 0 = some q2 ∧ q2.run = some q3 ∧
        q3.getDistance = some d ∧ q3.getNodePath = some nodes ∧ FastestDrive arcs cost ids x y d nodes

/-- If no trip between different nodes costs nothing in both directions, no stretch costs more than `W`, and the costs of as many stretches as there are
nodes fit into the numbers, then the hierarchy is built (if its witness searches are not cut off), and its arcs are light. -/
def HierarchyBuilt (arcs : List MapArc) (cost : MapArc → Nat → Prop) (ids tail head weight : List Nat) : Prop :=
  (∀ x y p q, Drive arcs cost x p y 0 → Drive arcs cost y q x 0 → x = y) →
  ∀ W, (∀ a ∈ arcs, ∀ c, cost a c → c ≤ W) → ids.length * W ≤ 357913941 → ids.length ≤ 46340 →
  ∀ (asserts : Bool), (asserts = true → arcs ≠ []) → ∀ (maxPop : Nat), 2 * ids.length ≤ maxPop → ∀ (junkF junkB : Nat → Word),
    ∃ ch, Ch.build asserts ids.length tail head weight maxPop junkF junkB = some ch ∧
      (∀ w ∈ ch.forward.weight, w ≤ lightArc) ∧ (∀ w ∈ ch.backward.weight, w ≤ lightArc)

/-- For every order of the nodes of which there are at most 65535, the customizable hierarchy is built, customized, and answers all
queries with cheapest trips along the arcs of the map. -/
def CustomizableAnswers (arcs : List MapArc) (cost : MapArc → Nat → Prop) (ids tail head weight : List Nat) : Prop :=
  ids ≠ [] → ids.length ≤ 65535 → ∀ (order : List Nat), IsPermutation order → order.length = ids.length →
    ∀ (callable filter : Bool), callable = true ∨ filter = true → ∀ (memory : Nat → Nat → Word),
    ∃ c m, Cch.build order tail head callable filter memory = some c ∧ (Metric.new c).customize c weight = some m ∧
      ∀ (addr s t x y : Nat), ids[s]? = some x → ids[t]? = some y →
        ∃ q1 q2 q3 d nodes, (CchQuery.new ⟨addr, c, m, weight⟩).addSource s 0 = some q1 ∧ q1.addTarget t 0 = some q2 ∧ q2.run = some q3 ∧
          q3.getDistance = some d ∧ q3.getNodePath = some nodes ∧ FastestDrive arcs cost ids x y d nodes

/-- What is needed to load the graph of a file for the ways `use` with the arcs `arcs`. -/
structure TrafficFile (fl : FloatOps) (inflate : List Byte → Option (List Byte)) (use : TagLookup → Bool) (arcs : List MapArc) (file : List Byte)
    (items : List OsmItem) : Prop where
  encoded : ∃ required optional, EncodesFile inflate required optional file items
  reserved : ∀ i ∈ items, ¬ i.Reserved
  good : ∀ i ∈ items, i.GoodIds
  unique : UniqueWays items
  nodes : ((usedWays (fun _ => use) items).flatMap Prod.snd).length ≤ 2 ^ 30
  ways : (usedWays (fun _ => use) items).length < invalidId
  lengths : ∀ a ∈ arcs, ∃ d, ArcLength fl items a d
  count : arcs.length < 2 ^ 30

/-- The graph of a file, with the tails of its arcs. -/
structure TrafficNetwork (fl : FloatOps) (use : TagLookup → Bool) (all : Bool) (items : List OsmItem) (arcs : List MapArc) (cost : MapArc → Nat → Prop)
    (firstOut head weight : List Nat) (latitude longitude : List fl.F) (ids tail : List Nat) : Prop where
  tails : invertInverseVector firstOut = some tail
  count : firstOut.length = ids.length + 1
  routing : RoutingNodesOf use all items ids
  latitude : latitude = ids.map fun x => (coordinates fl items x).1
  longitude : longitude = ids.map fun x => (coordinates fl items x).2
  arcCount : tail.length = arcs.length
  input : GraphInput ⟨ids.length, listArcs tail head weight⟩ tail head weight
  arcs : Matches (listArcs tail head weight) arcs cost ids

theorem network_way {all : Bool} {use fwd bwd : TagLookup → Bool} {items : List OsmItem} (hg : ∀ i ∈ items, i.GoodIds) {a : MapArc}
    (h : a ∈ networkArcs all use fwd bwd items) : ∃ tags, WayOf items a tags := by
  unfold networkArcs at h
  obtain ⟨i, hi, ha⟩ := List.mem_flatMap.1 h
  cases i with
  | way id nodes tags =>
    simp only at ha
    split at ha
    · unfold arcsOfWay at ha
      obtain ⟨s, _, hs⟩ := List.mem_flatMap.1 ha
      have hid := (hg _ hi).1.1
      refine ⟨tags, id, nodes, hi, ?_⟩
      have : a.way = id.toNat := by
        rcases List.mem_append.1 hs with hs | hs
        · split at hs <;> simp at hs
          rw [hs]
        · split at hs <;> simp at hs
          rw [hs]
      omega
    · simp at ha
  | _ => simp at ha

/-- The length of an arc of the map is the distance of the arc of the graph. -/
theorem shows_length {items : List OsmItem} {m : IdMapping} {arcs : List MapArc} {r : RoutingGraph fl} (hS : Shows items m .none arcs r)
    {a : Nat} {M : MapArc} (ha : arcs[a]? = some M) : ∃ d, r.geoDistance[a]? = some d ∧ ArcLength fl items M d := by
  have hl := hS.distance.length_eq
  have hla := (List.getElem?_eq_some_iff.1 ha).1
  have := List.Forall₂.get hS.distance hla (by omega)
  simp only [List.get_eq_getElem] at this
  rw [(List.getElem?_eq_some_iff.1 ha).2] at this
  exact ⟨_, List.getElem?_eq_getElem (by omega), this⟩

theorem traffic_network {inflate : List Byte → Option (List Byte)} {use : TagLookup → Bool} {all : Bool} {arcs mapArcs : List MapArc} {file : List Byte}
    {items : List OsmItem} (h : TrafficFile fl inflate use mapArcs file items) {m : IdMapping} {r : RoutingGraph fl} {cost : MapArc → Nat → Prop}
    {weight : List Nat} (hM : MappingIs all [] (usedWays (fun _ => use) items) m) (hp : arcs.Perm mapArcs) (hS : Shows items m .none arcs r)
    (hlen : weight.length = arcs.length) (hcost : ∀ (a : Nat) M w, arcs[a]? = some M → (cost M w ↔ weight[a]? = some w))
    (hlight : ∀ w ∈ weight, w ≤ 2 * lightArc) :
    ∃ ids tail, TrafficNetwork fl use all items mapArcs cost r.firstOut r.head weight r.latitude r.longitude ids tail := by
  have hinv : invalidId = 4294967295 := rfl
  have hcsr : IsCSR (total m.routing) r.firstOut r.head := hS.csr
  obtain ⟨tail, et, hT⟩ := invert_tail hcsr
  let ids := (List.range m.routing.size).filter (On m.routing)
  have hidl : ids.length = total m.routing := rfl
  have hon : ∀ x, On m.routing x = true → x < m.routing.size := by
    intro x hx
    unfold On isSet at hx
    by_contra hge
    simp [check, hge] at hx
  have hidx : ∀ x, On m.routing x = true → ids[onesBelow m.routing x]? = some x := fun x hx => filter_rank _ (hon x hx) hx
  have hsorted : ids.Pairwise (· < ·) := List.Pairwise.filter _ List.pairwise_lt_range
  have hnd : ids.Nodup := hsorted.imp (fun h => Nat.ne_of_lt h)
  have hmem : ∀ x, x ∈ ids ↔ On m.routing x = true := by
    intro x
    simp only [ids, List.mem_filter, List.mem_range]
    exact ⟨fun h => h.2, fun h => ⟨hon x h, h⟩⟩
  have hat : ∀ (i x : Nat), ids[i]? = some x → On m.routing x = true ∧ i = onesBelow m.routing x := by
    intro i x hi
    have hx := (hmem x).1 (List.mem_of_getElem? hi)
    refine ⟨hx, ?_⟩
    obtain ⟨l1, e1⟩ := List.getElem?_eq_some_iff.1 hi
    obtain ⟨l2, e2⟩ := List.getElem?_eq_some_iff.1 (hidx x hx)
    exact (hnd.getElem_inj_iff).1 (e1.trans e2.symm)
  have hhead : ∀ (a : Nat) M, arcs[a]? = some M → r.head[a]? = some (onesBelow m.routing M.head) := by
    intro a M ha
    rw [hS.head, List.getElem?_map, ha]; rfl
  have htail : ∀ (a : Nat) M, arcs[a]? = some M → tail[a]? = some (onesBelow m.routing M.tail) := by
    intro a M ha
    obtain ⟨b, f, h1, h2, h3⟩ := hS.firstOut M.tail (hS.ends M (List.mem_of_getElem? ha)).1
    obtain ⟨h4, h5⟩ := (h3 a M ha).1 rfl
    exact hT.own _ _ ⟨b, f, h1, h2, h4, h5⟩
  have hheadl : r.head.length = arcs.length := by rw [hS.head, List.length_map]
  have hget : ∀ (a : Nat), a < arcs.length → ∃ M, arcs[a]? = some M := fun a ha => ⟨_, List.getElem?_eq_getElem ha⟩
  refine ⟨ids, tail, et, by rw [hidl]; exact hcsr.length, ⟨hsorted, fun x => ?_⟩, ?_, ?_, ?_, ⟨rfl, hT.length.symm, ?_, ?_, ?_, ?_, ?_, ?_⟩, ?_, ?_, ?_⟩
  · rw [hmem, marks_routing hM]
  · apply List.ext_getElem?
    intro i
    by_cases hi : i < ids.length
    · have hi' := List.getElem?_eq_getElem hi
      obtain ⟨h1, h2⟩ := hat _ _ hi'
      rw [List.getElem?_map, hi']
      have := hS.latitude _ h1
      rw [← h2] at this
      exact this
    · rw [List.getElem?_eq_none (by rw [hS.latitudes]; omega), List.getElem?_eq_none (by rw [List.length_map]; omega)]
  · apply List.ext_getElem?
    intro i
    by_cases hi : i < ids.length
    · have hi' := List.getElem?_eq_getElem hi
      obtain ⟨h1, h2⟩ := hat _ _ hi'
      rw [List.getElem?_map, hi']
      have := hS.longitude _ h1
      rw [← h2] at this
      exact this
    · rw [List.getElem?_eq_none (by rw [hS.longitudes]; omega), List.getElem?_eq_none (by rw [List.length_map]; omega)]
  · rw [hT.length, hheadl, hp.length_eq]
  · rw [hlen, hT.length, hheadl]
  · exact isTail_lt hcsr hT
  · intro x hx
    obtain ⟨a, ha⟩ := List.getElem?_of_mem hx
    exact hcsr.head_lt a x ha
  · exact hlight
  · have hsub : (ids.map Int.ofNat) ⊆ (usedWays (fun _ => use) items).flatMap Prod.snd := by
      intro z hz
      obtain ⟨x, hx, rfl⟩ := List.mem_map.1 hz
      have h1 := (hM x).2.2.1 ((hmem x).1 hx)
      have key : IsModellingNode [] (usedWays (fun _ => use) items) x ∨ IsRoutingNode [] (usedWays (fun _ => use) items) x := by
        cases all
        · exact Or.inr (by simpa using h1)
        · exact Or.inl (by simpa using h1)
      rw [List.mem_flatMap]
      rcases key with (h2 | ⟨w, hw, hx⟩) | (h2 | ⟨w, hw, hx | hx⟩ | h2)
      · simp at h2
      · exact ⟨w, hw, hx⟩
      · simp at h2
      · exact ⟨w, hw, List.mem_of_mem_head? hx⟩
      · exact ⟨w, hw, List.mem_of_mem_getLast? hx⟩
      · exact List.mem_flatMap.1 (List.count_pos_iff.1 (Nat.lt_of_lt_of_le Nat.zero_lt_two h2))
    have hnd' : (ids.map Int.ofNat).Nodup := hnd.map (fun a b h => by simpa using h)
    have := (List.subperm_of_subset hnd' hsub).length_le
    rw [List.length_map] at this
    exact Nat.le_trans this h.nodes
  · rw [hT.length, hheadl, hp.length_eq]
    have := h.count
    omega
  · rintro a x y w ⟨h1, h2, h3⟩
    obtain ⟨M, hMa⟩ := hget a (by rw [← hlen]; exact (List.getElem?_eq_some_iff.1 h3).1)
    rw [htail a M hMa] at h1
    rw [hhead a M hMa] at h2
    cases h1; cases h2
    have hm := List.mem_of_getElem? hMa
    exact ⟨M, hp.mem_iff.1 hm, hidx _ (hS.ends M hm).1, hidx _ (hS.ends M hm).2, (hcost a M w hMa).2 h3⟩
  · intro M hMc w hw
    have hm := hp.mem_iff.2 hMc
    obtain ⟨a, ha⟩ := List.getElem?_of_mem hm
    exact ⟨a, _, _, ⟨htail a M ha, hhead a M ha, (hcost a M w ha).1 hw⟩, hidx _ (hS.ends M hm).1, hidx _ (hS.ends M hm).2⟩
  · rintro a x y w x' y' w' ⟨_, h1, _⟩ ⟨_, h2, _⟩
    rw [h1] at h2
    cases h2; rfl

theorem network_hierarchy {use : TagLookup → Bool} {all : Bool} {items : List OsmItem} {mapArcs : List MapArc} {cost : MapArc → Nat → Prop}
    {firstOut head weight : List Nat} {latitude longitude : List fl.F} {ids tail : List Nat}
    (hN : TrafficNetwork fl use all items mapArcs cost firstOut head weight latitude longitude ids tail) :
    HierarchyAnswers mapArcs cost ids tail head weight := by
  intro asserts maxPop junkF junkB ch hb l1 l2 s t x y hx hy
  obtain ⟨q1, q2, q3, d, as, nodes, e1, e2, e3, e4, _, e6, hr⟩ := C22_C23_one_to_one ch ⟨ids.length, listArcs tail head weight⟩
    ⟨tail, head, weight, hN.input, asserts, maxPop, junkF, junkB, Or.inl hb, l1, l2⟩ s t (List.getElem?_eq_some_iff.1 hx).1 (List.getElem?_eq_some_iff.1 hy).1
  exact ⟨q1, q2, q3, d, nodes, e1, e2, e3, e4, e6, fastest hN.arcs (hN.routing.1.imp Nat.ne_of_lt) hx hy hr⟩

theorem network_built {use : TagLookup → Bool} {all : Bool} {items : List OsmItem} {mapArcs : List MapArc} {cost : MapArc → Nat → Prop}
    {firstOut head weight : List Nat} {latitude longitude : List fl.F} {ids tail : List Nat}
    (hN : TrafficNetwork fl use all items mapArcs cost firstOut head weight latitude longitude ids tail) :
    HierarchyBuilt mapArcs cost ids tail head weight := by
  intro hz W hW hfit hsmall asserts hne maxPop hpop junkF junkB
  have hnodup : ids.Nodup := hN.routing.1.imp Nat.ne_of_lt
  have hzero : NoZeroCycles (listArcs tail head weight) := by
    intro s t p q hp hq
    by_cases hst : s = t
    · exact hst
    obtain ⟨x, hx⟩ : ∃ x, ids[s]? = some x := by
      obtain ⟨a, m, w, ha⟩ := walk_start hp hst
      obtain ⟨M, _, h1, _⟩ := hN.arcs.1 _ _ _ _ ha
      exact ⟨_, h1⟩
    obtain ⟨np, hnp⟩ := nodesOf_exists hp
    obtain ⟨nq, hnq⟩ := nodesOf_exists hq
    obtain ⟨y, P, hy, hP, _⟩ := walk_drive hN.arcs hp hx hnp
    obtain ⟨x', Q, hx', hQ, _⟩ := walk_drive hN.arcs hq hy hnq
    rw [hx] at hx'
    cases hx'
    cases hz x y P Q hP hQ
    obtain ⟨l1, e1⟩ := List.getElem?_eq_some_iff.1 hx
    obtain ⟨l2, e2⟩ := List.getElem?_eq_some_iff.1 hy
    exact (hnodup.getElem_inj_iff).1 (e1.trans e2.symm)
  have hmax : ∀ w ∈ weight, w ≤ W := by
    intro w hw
    obtain ⟨a, ha⟩ := List.getElem?_of_mem hw
    have hl := (List.getElem?_eq_some_iff.1 ha).1
    have h1 := hN.input.weight_len
    have h2 := hN.input.head_len
    obtain ⟨M, hM, _, _, ht⟩ := hN.arcs.1 a _ _ w ⟨List.getElem?_eq_getElem (show a < tail.length by omega),
      List.getElem?_eq_getElem (show a < head.length by omega), ha⟩
    exact hW M hM w ht
  obtain ⟨_, h2⟩ := C78_positive_graphs ⟨ids.length, listArcs tail head weight⟩ tail head weight hN.input hzero asserts maxPop W junkF junkB
    (fun ha hnil => hne ha (List.eq_nil_of_length_eq_zero (by rw [← hN.arcCount, hnil]; rfl)))
    hpop hmax (by show ids.length ≤ 65535; omega) hfit
  obtain ⟨ch, hb, hbf⟩ := h2 hsmall
  obtain ⟨l1, l2⟩ := builtFor_light hbf
  exact ⟨ch, hb, l1, l2⟩

theorem network_customizable {use : TagLookup → Bool} {all : Bool} {items : List OsmItem} {mapArcs : List MapArc} {cost : MapArc → Nat → Prop}
    {firstOut head weight : List Nat} {latitude longitude : List fl.F} {ids tail : List Nat}
    (hN : TrafficNetwork fl use all items mapArcs cost firstOut head weight latitude longitude ids tail) (hcount : mapArcs.length < 2 ^ 30) :
    CustomizableAnswers mapArcs cost ids tail head weight := by
  intro hpos hn order hp hl callable filter hlog memory
  have hsize : tail.length < 2 ^ 31 := by
    have := hN.arcCount
    omega
  have hi : CchInput order tail head callable filter :=
    ⟨hp, by intro e; subst e; exact hpos (List.eq_nil_of_length_eq_zero hl.symm), hN.input.head_len.symm, by rw [hl]; exact hN.input.tail_lt,
      by rw [hl]; exact hN.input.head_lt, hsize, hlog⟩
  obtain ⟨c, ec⟩ := C25_succeeds_small order tail head callable filter memory hi (by omega)
  have hw' : ∀ w ∈ weight, w ≤ infWeight := fun w hx => by
    have h1 := hN.input.weight_le w hx
    have h2 : lightArc = 357913941 := rfl
    have h3 : infWeight = 2147483647 := rfl
    omega
  obtain ⟨m, em, _⟩ := C27_customized_weights order tail head callable filter memory c hi ec weight hN.input.weight_len hw' (Metric.new c)
    (by simp [Metric.new]) (by simp [Metric.new])
  refine ⟨c, m, ec, em, fun addr s t x y hx hy => ?_⟩
  obtain ⟨q1, q2, q3, d, as, nodes, e1, e2, e3, e4, _, e6, hr⟩ := C30_C31_one_to_one (fun _ => c) ⟨addr, c, m, weight⟩
    ⟨ids.length, listArcs tail head weight⟩
    ⟨order, tail, head, callable, filter, memory, Metric.new c, hi, by omega, ec, hN.input.weight_len, hw', hl.symm, rfl, by simp [Metric.new],
      by simp [Metric.new], em, rfl⟩ s t (List.getElem?_eq_some_iff.1 hx).1 (List.getElem?_eq_some_iff.1 hy).1
  exact ⟨q1, q2, q3, d, nodes, e1, e2, e3, e4, e6, fastest hN.arcs (hN.routing.1.imp Nat.ne_of_lt) hx hy hr⟩

/-- C88, pedestrians: the graph of a file is loaded; its nodes are the routing nodes of the ways for pedestrians; with the distances of
the graph as weights, hierarchies of both kinds answer all queries with shortest walks along the ways of the file. -/
theorem C88_pedestrian_routes {inflate : List Byte → Option (List Byte)} {all : Bool} {file : List Byte} {items : List OsmItem}
    (h : TrafficFile fl inflate usedByPedestrians (pedestrianArcs all items) file items)
    (hl : ∀ a ∈ pedestrianArcs all items, ∀ d, ArcLength fl items a d → d ≤ 2 * lightArc)
    (own own' : Bool) (k : Nat) (k' : Nat → Nat) (stdSort : SortFn) (junk : Nat → Word) :
    ∃ g ids tail, simplePedestrian fl false inflate own own' k k' stdSort junk all file = .ok g ∧ invertInverseVector g.firstOut = some tail ∧
      g.firstOut.length = ids.length + 1 ∧ RoutingNodesOf usedByPedestrians all items ids ∧
      g.latitude = ids.map (fun x => (coordinates fl items x).1) ∧ g.longitude = ids.map (fun x => (coordinates fl items x).2) ∧
      HierarchyAnswers (pedestrianArcs all items) (ArcLength fl items) ids tail g.head g.geoDistance ∧
      HierarchyBuilt (pedestrianArcs all items) (ArcLength fl items) ids tail g.head g.geoDistance ∧
      CustomizableAnswers (pedestrianArcs all items) (ArcLength fl items) ids tail g.head g.geoDistance := by
  obtain ⟨required, optional, henc⟩ := h.encoded
  have hinv : invalidId = 4294967295 := rfl
  obtain ⟨g, m, arcs, r, e, hM, hp, _, hS, g1, g2, g3, g4, g5⟩ := C62_pedestrian_graph (fl := fl) henc h.reserved h.good h.unique own own' k k' stdSort junk all
    (by have := h.nodes; omega) h.ways (fun a ha => by obtain ⟨d, e⟩ := h.lengths a ha; rw [e]; rfl)
  have hlen : r.geoDistance.length = arcs.length := hS.distance.length_eq.symm
  obtain ⟨ids, tail, hN⟩ := traffic_network (cost := ArcLength fl items) h hM hp hS hlen (by
      intro a M w ha
      obtain ⟨d, h1, h2⟩ := shows_length hS ha
      constructor
      · intro hw
        have : some w = some d := hw.symm.trans h2
        cases this
        exact h1
      · intro hw
        rw [h1] at hw
        cases hw
        exact h2) (by
      intro w hw
      obtain ⟨a, ha⟩ := List.getElem?_of_mem hw
      have hMa := List.getElem?_eq_getElem (l := arcs) (show a < arcs.length by rw [← hlen]; exact (List.getElem?_eq_some_iff.1 ha).1)
      obtain ⟨d, h1, h2⟩ := shows_length hS hMa
      rw [h1] at ha
      cases ha
      exact hl _ (hp.mem_iff.1 (List.mem_of_getElem? hMa)) _ h2)
  rw [← g1, ← g2, ← g3, ← g4, ← g5] at hN
  exact ⟨g, ids, tail, e, hN.tails, hN.count, hN.routing, hN.latitude, hN.longitude, network_hierarchy hN, network_built hN, network_customizable hN h.count⟩

/-- C88, bicycles: the graph of a file is loaded; its nodes are the routing nodes of the ways for bicycles; if the weight of every arc is
computed from its distance and its comfort level, by any function, then hierarchies of both kinds answer all queries with cheapest rides along the
ways of the file. -/
theorem C88_bicycle_routes {inflate : List Byte → Option (List Byte)} {all : Bool} {file : List Byte} {items : List OsmItem}
    (h : TrafficFile fl inflate usedByBicycles (bicycleArcs all items) file items) (f : Nat → Nat → Nat)
    (hl : ∀ a ∈ bicycleArcs all items, ∀ c, RideCost fl items f a c → c ≤ 2 * lightArc)
    (own own' : Bool) (k : Nat) (k' : Nat → Nat) (stdSort : SortFn) (junk : Nat → Word) :
    ∃ g ids tail, simpleBicycle fl false inflate own own' k k' stdSort junk all file = .ok g ∧ invertInverseVector g.firstOut = some tail ∧
      g.firstOut.length = ids.length + 1 ∧ RoutingNodesOf usedByBicycles all items ids ∧
      g.latitude = ids.map (fun x => (coordinates fl items x).1) ∧ g.longitude = ids.map (fun x => (coordinates fl items x).2) ∧
      g.geoDistance.length = tail.length ∧ g.comfort.length = tail.length ∧
      HierarchyAnswers (bicycleArcs all items) (RideCost fl items f) ids tail g.head (List.zipWith f g.geoDistance g.comfort) ∧
      HierarchyBuilt (bicycleArcs all items) (RideCost fl items f) ids tail g.head (List.zipWith f g.geoDistance g.comfort) ∧
      CustomizableAnswers (bicycleArcs all items) (RideCost fl items f) ids tail g.head (List.zipWith f g.geoDistance g.comfort) := by
  obtain ⟨required, optional, henc⟩ := h.encoded
  have hinv : invalidId = 4294967295 := rfl
  obtain ⟨g, m, arcs, r, e, hM, hp, _, hS, g1, g2, g3, g4, g5, gl, gc⟩ := C62_bicycle_graph (fl := fl) henc h.reserved h.good h.unique own own' k k' stdSort junk all
    (by have := h.nodes; omega) h.ways (fun a ha => by obtain ⟨d, e⟩ := h.lengths a ha; rw [e]; rfl)
  have hlen : r.geoDistance.length = arcs.length := hS.distance.length_eq.symm
  rw [← g3] at hlen
  have hlen' : (List.zipWith f g.geoDistance g.comfort).length = arcs.length := by rw [List.length_zipWith, hlen, gl, Nat.min_self]
  have hcost : ∀ (a : Nat) M w, arcs[a]? = some M → (RideCost fl items f M w ↔ (List.zipWith f g.geoDistance g.comfort)[a]? = some w) := by
    intro a M w ha
    obtain ⟨d, h1, h2⟩ := shows_length hS ha
    rw [← g3] at h1
    constructor
    · rintro ⟨tags, d', hw, hd, rfl⟩
      have : some d' = some d := hd.symm.trans h2
      cases this
      rw [List.getElem?_zipWith, h1, gc a M tags ha hw]
    · intro hw
      obtain ⟨tags, htag⟩ := network_way h.good (hp.mem_iff.1 (List.mem_of_getElem? ha))
      rw [List.getElem?_zipWith, h1, gc a M tags ha htag] at hw
      cases hw
      exact ⟨tags, d, htag, h2, rfl⟩
  obtain ⟨ids, tail, hN⟩ := traffic_network (cost := RideCost fl items f) h hM hp hS hlen' hcost (by
      intro w hw
      obtain ⟨a, ha⟩ := List.getElem?_of_mem hw
      have hMa := List.getElem?_eq_getElem (l := arcs) (show a < arcs.length by rw [← hlen']; exact (List.getElem?_eq_some_iff.1 ha).1)
      exact hl _ (hp.mem_iff.1 (List.mem_of_getElem? hMa)) _ ((hcost a _ w hMa).2 ha))
  rw [← g1, ← g2, ← g4, ← g5] at hN
  have htl : arcs.length = tail.length := by rw [hN.arcCount, hp.length_eq]
  exact ⟨g, ids, tail, e, hN.tails, hN.count, hN.routing, hN.latitude, hN.longitude, hlen.trans htl, gl.trans htl,
    network_hierarchy hN, network_built hN, network_customizable hN h.count⟩

/-! ### An example -/

theorem roadWalkFile : TrafficFile intOps (fun _ => none) usedByPedestrians (pedestrianArcs false roadItems) roadFile roadItems where
  encoded := ⟨_, _, roadFile_ok⟩
  reserved := roadReserved
  good := roadGood
  unique := roadUnique
  nodes := by decide +kernel
  ways := by decide +kernel
  lengths := by
    rw [roadArcs.2.1]
    intro a ha
    simp only [List.mem_cons, List.not_mem_nil, or_false] at ha
    rcases ha with rfl | rfl <;> exact ⟨3200, by unfold ArcLength; decide +kernel⟩
  count := by rw [roadArcs.2.1]; decide

theorem roadRideFile : TrafficFile intOps (fun _ => none) usedByBicycles (bicycleArcs false roadItems) roadFile roadItems where
  encoded := ⟨_, _, roadFile_ok⟩
  reserved := roadReserved
  good := roadGood
  unique := roadUnique
  nodes := by decide +kernel
  ways := by decide +kernel
  lengths := by
    rw [roadArcs.2.2]
    intro a ha
    simp only [List.mem_cons, List.not_mem_nil, or_false] at ha
    rcases ha with rfl | rfl <;> exact ⟨3200, by unfold ArcLength; decide +kernel⟩
  count := by rw [roadArcs.2.2]; decide

theorem roadLength : ∀ a ∈ ([⟨7, ⟨3, [5], 4⟩, false⟩, ⟨7, ⟨3, [5], 4⟩, true⟩] : List MapArc), ∀ d, ArcLength intOps roadItems a d → d = 3200 := by
  intro a ha d h
  have hd : intOps.toUnsigned (segmentLength intOps roadItems a.seg) = some 3200 := by
    simp only [List.mem_cons, List.not_mem_nil, or_false] at ha
    rcases ha with rfl | rfl <;> decide +kernel
  have : some d = some 3200 := h.symm.trans hd
  cases this; rfl

theorem roadTrip {cost : MapArc → Nat → Prop} {c : Nat} (hc : 0 < c) (hc' : c < 2147483647)
    (h1 : ∀ a ∈ ([⟨7, ⟨3, [5], 4⟩, false⟩, ⟨7, ⟨3, [5], 4⟩, true⟩] : List MapArc), ∀ w, cost a w → w = c) (h2 : cost ⟨7, ⟨3, [5], 4⟩, false⟩ c)
    {ids nodes : List Nat} {d : Nat} (hf : FastestDrive [⟨7, ⟨3, [5], 4⟩, false⟩, ⟨7, ⟨3, [5], 4⟩, true⟩] cost ids 3 4 d nodes) : d = c := by
  have hdrive : ∀ x p y l, Drive [⟨7, ⟨3, [5], 4⟩, false⟩, ⟨7, ⟨3, [5], 4⟩, true⟩] cost x p y l → l = c * p.length := by
    intro x p y l h
    induction h with
    | stay => simp
    | along ha ht _ ih => rw [h1 _ ha _ ht, ih, List.length_cons, Nat.mul_succ, Nat.add_comm]
  have hone : Drive [⟨7, ⟨3, [5], 4⟩, false⟩, ⟨7, ⟨3, [5], 4⟩, true⟩] cost 3 [⟨7, ⟨3, [5], 4⟩, false⟩] 4 (c + 0) :=
    Drive.along (a := ⟨7, ⟨3, [5], 4⟩, false⟩) (by simp) h2 (.stay 4)
  rcases hf with ⟨_, ⟨p, hp, _⟩, hmin⟩ | ⟨_, _, hmin⟩
  · have e1 := hmin _ _ hone
    have e2 := hdrive _ _ _ _ hp
    cases p with
    | nil =>
      exfalso
      have hs : ∀ x p y l, Drive [⟨7, ⟨3, [5], 4⟩, false⟩, ⟨7, ⟨3, [5], 4⟩, true⟩] cost x p y l → p = [] → x = y := by
        intro x p y l h
        cases h <;> simp
      exact absurd (hs _ _ _ _ hp rfl) (by decide)
    | cons a p =>
      rw [List.length_cons, Nat.mul_succ] at e2
      omega
  · have := hmin _ _ hone
    omega

theorem roadNodesOf {use : TagLookup → Bool} {ids : List Nat} (hu : usedWays (fun _ => use) roadItems = [(7, [3, 5, 4])])
    (h : RoutingNodesOf use false roadItems ids) : ids = [3, 4] := by
  have hc : usedWays (fun _ => usedByCars) roadItems = [(7, [3, 5, 4])] := by decide +kernel
  refine List.Perm.eq_of_pairwise (le := (· < ·)) (fun a b _ _ x y => by omega) h.1 roadNodes.1 ?_
  refine (List.perm_ext_iff_of_nodup (h.1.imp Nat.ne_of_lt) (roadNodes.1.imp Nat.ne_of_lt)).2 (fun x => ?_)
  rw [h.2, roadNodes.2, hu, hc]

/-- The hypotheses are satisfiable: in the example, the walk from the node 3 to the node 4 is 3200 metres long, according to the customizable hierarchy
for the order 1, 0. -/
example : ∃ g tail c m q1 q2 q3, simplePedestrian intOps false (fun _ => none) false true 0 (fun _ => 0) (fun _ _ l => l) (fun _ => 0) false roadFile = .ok g ∧
    invertInverseVector g.firstOut = some tail ∧ Cch.build [1, 0] tail g.head true false (fun _ _ => 0) = some c ∧
    (Metric.new c).customize c g.geoDistance = some m ∧ (CchQuery.new ⟨0, c, m, g.geoDistance⟩).addSource 0 0 = some q1 ∧ q1.addTarget 1 0 = some q2 ∧
    q2.run = some q3 ∧ q3.getDistance = some 3200 := by
  obtain ⟨g, ids, tail, e, et, _, hr, _, _, _, _, hc⟩ := C88_pedestrian_routes roadWalkFile (by
      rw [roadArcs.2.1]
      intro a ha d hd
      rw [roadLength a ha d hd]
      decide) false true 0 (fun _ => 0) (fun _ _ l => l) (fun _ => 0)
  obtain rfl := roadNodesOf (by decide +kernel) hr
  obtain ⟨c, m, e1, e2, h⟩ := hc (by simp) (by decide) [1, 0] (by unfold IsPermutation; decide) rfl true false (Or.inl rfl) (fun _ _ => 0)
  obtain ⟨q1, q2, q3, d, nodes, f1, f2, f3, f4, _, hf⟩ := h 0 0 1 3 4 rfl rfl
  rw [roadArcs.2.1] at hf
  have := roadTrip (by decide) (by decide) roadLength (c := 3200) (by unfold ArcLength; decide +kernel) hf
  exact ⟨g, tail, c, m, q1, q2, q3, e, et, e1, e2, f1, f2, f3, by rw [f4, this]⟩

/-- Also the hierarchy of this file is built and answers the query. -/
example : ∃ g tail ch q1 q2 q3, simplePedestrian intOps false (fun _ => none) false true 0 (fun _ => 0) (fun _ _ l => l) (fun _ => 0) false roadFile = .ok g ∧
    invertInverseVector g.firstOut = some tail ∧ Ch.build true 2 tail g.head g.geoDistance 500 (fun _ => 0) (fun _ => 0) = some ch ∧
    (ChQuery.new ch).addSource 0 0 = some q1 ∧ q1.addTarget 1 0 = some q2 ∧ q2.run = some q3 ∧ q3.getDistance = some 3200 := by
  obtain ⟨g, ids, tail, e, et, _, hr, _, _, hh, hb, _⟩ := C88_pedestrian_routes roadWalkFile (by
      rw [roadArcs.2.1]
      intro a ha d hd
      rw [roadLength a ha d hd]
      decide) false true 0 (fun _ => 0) (fun _ _ l => l) (fun _ => 0)
  obtain rfl := roadNodesOf (by decide +kernel) hr
  rw [roadArcs.2.1] at hh hb
  obtain ⟨ch, b, l1, l2⟩ := hb (fun x y p q hp _ => by
      generalize hz : 0 = l at hp
      cases hp with
      | stay => rfl
      | along ha ht _ =>
        have := roadLength _ ha _ ht
        omega) 3200 (fun a ha c hc => by rw [roadLength a ha c hc]) (by decide) (by decide) true (fun _ => by simp) 500 (by decide) (fun _ => 0) (fun _ => 0)
  obtain ⟨q1, q2, q3, d, nodes, f1, f2, f3, f4, _, hf⟩ := hh true 500 _ _ ch b l1 l2 0 1 3 4 rfl rfl
  have := roadTrip (by decide) (by decide) roadLength (c := 3200) (by unfold ArcLength; decide +kernel) hf
  exact ⟨g, tail, ch, q1, q2, q3, e, et, b, f1, f2, f3, by rw [f4, this]⟩

theorem roadRide (f : Nat → Nat → Nat) : ∀ a ∈ ([⟨7, ⟨3, [5], 4⟩, false⟩, ⟨7, ⟨3, [5], 4⟩, true⟩] : List MapArc), ∀ c, RideCost intOps roadItems f a c →
    c = f 3200 (bicycleComfort (lookup roadTags)) := by
  rintro a ha c ⟨tags, d, ⟨id, nodes, hm, _⟩, h3, rfl⟩
  simp only [roadItems, List.mem_cons, List.not_mem_nil, or_false, reduceCtorEq, false_or, OsmItem.way.injEq] at hm
  obtain ⟨_, _, rfl⟩ := hm
  rw [roadLength a ha d h3]

/-- The hypotheses are satisfiable: rides that cost five times the length less the comfort level. -/
example : ∃ g tail c m q1 q2 q3, simpleBicycle intOps false (fun _ => none) false true 0 (fun _ => 0) (fun _ _ l => l) (fun _ => 0) false roadFile = .ok g ∧
    invertInverseVector g.firstOut = some tail ∧ Cch.build [1, 0] tail g.head true false (fun _ _ => 0) = some c ∧
    (Metric.new c).customize c (List.zipWith (fun d c => d * (5 - c)) g.geoDistance g.comfort) = some m ∧
    (CchQuery.new ⟨0, c, m, List.zipWith (fun d c => d * (5 - c)) g.geoDistance g.comfort⟩).addSource 0 0 = some q1 ∧ q1.addTarget 1 0 = some q2 ∧
    q2.run = some q3 ∧ q3.getDistance = some (3200 * (5 - bicycleComfort (lookup roadTags))) ∧ bicycleComfort (lookup roadTags) < 5 := by
  have hb : bicycleComfort (lookup roadTags) < 5 := by decide +kernel
  obtain ⟨g, ids, tail, e, et, _, hr, _, _, _, _, _, _, hc⟩ := C88_bicycle_routes roadRideFile (fun d c => d * (5 - c)) (by
      rw [roadArcs.2.2]
      intro a ha d hd
      rw [roadRide _ a ha d hd]
      have : lightArc = 357913941 := rfl
      omega) false true 0 (fun _ => 0) (fun _ _ l => l) (fun _ => 0)
  obtain rfl := roadNodesOf (by decide +kernel) hr
  obtain ⟨c, m, e1, e2, h⟩ := hc (by simp) (by decide) [1, 0] (by unfold IsPermutation; decide) rfl true false (Or.inl rfl) (fun _ _ => 0)
  obtain ⟨q1, q2, q3, d, nodes, f1, f2, f3, f4, _, hf⟩ := h 0 0 1 3 4 rfl rfl
  rw [roadArcs.2.2] at hf
  have := roadTrip (by omega) (by omega) (roadRide _)
    ⟨roadTags, 3200, ⟨7, [3, 5, 4], by simp [roadItems], rfl⟩, by unfold ArcLength; decide +kernel, rfl⟩ hf
  exact ⟨g, tail, c, m, q1, q2, q3, e, et, e1, e2, f1, f2, f3, by rw [f4, this], hb⟩

end RK.Props
