import Verif.Model.Readme
import Verif.Spec.Routes
import Verif.Props.OsmSimple
import Verif.Props.ShowPath
import Verif.Props.VpTree
import Verif.Props.ChPositive
/-! # C84: from an OpenStreetMap file to a route -/
namespace RK.Props
open RK RK.Osm _root_.Spec RK.Spec BitVector

variable {fl : FloatOps}

/-- The time in milliseconds that a car needs for an arc of the file: its length in metres, at the speed (in km/h) of its way. -/
def DriveTime (fl : FloatOps) (items : List OsmItem) (a : MapArc) (t : Nat) : Prop :=
  ∃ tags v d, WayOf items a tags ∧ waySpeed (lookup tags) = some v ∧ fl.toUnsigned (segmentLength fl items a.seg) = some d ∧ t = d * 3600 / v

/-- The nodes of the graph: the routing nodes of the file by increasing id. -/
def RoutingNodes (all : Bool) (items : List OsmItem) (ids : List Nat) : Prop :=
  ids.Pairwise (· < ·) ∧ ∀ x, x ∈ ids ↔ routingNode all (usedWays (fun _ => usedByCars) items) x = true

/-! ### Walks and drives -/

theorem filter_rank (f : Nat → Bool) {n x : Nat} (hx : x < n) (hf : f x = true) :
    ((List.range n).filter f)[((List.range x).filter f).length]? = some x := by
  obtain ⟨k, rfl⟩ := Nat.exists_eq_add_of_le (show x + 1 ≤ n by omega)
  rw [List.range_add, List.range_succ, List.filter_append, List.filter_append, List.append_assoc, List.getElem?_append_right (Nat.le_refl _), Nat.sub_self]
  simp [hf]

/-- Arcs of a graph that correspond to arcs of a map. -/
def Matches (A : ArcRel) (arcs : List MapArc) (time : MapArc → Nat → Prop) (ids : List Nat) : Prop :=
  (∀ a x y w, A a x y w → ∃ M ∈ arcs, ids[x]? = some M.tail ∧ ids[y]? = some M.head ∧ time M w) ∧
  (∀ M ∈ arcs, ∀ w, time M w → ∃ a x y, A a x y w ∧ ids[x]? = some M.tail ∧ ids[y]? = some M.head) ∧
  (∀ a x y w x' y' w', A a x y w → A a x' y' w' → y = y')

theorem walk_drive {A : ArcRel} {arcs : List MapArc} {time : MapArc → Nat → Prop} {ids : List Nat} (h : Matches A arcs time ids)
    {s t l : Nat} {p : List Nat} (hw : Walk A s p t l) : ∀ {x : Nat} {ns : List Nat}, ids[s]? = some x → NodesOf A s p ns →
    ∃ y P, ids[t]? = some y ∧ Drive arcs time x P y l ∧ ns.map (ids[·]?) = (x :: P.map MapArc.head).map some := by
  induction hw with
  | nil s =>
    intro x ns hx hn
    cases hn
    exact ⟨x, [], hx, .stay x, by simp [hx]⟩
  | @cons a s m t w l p ha _ ih =>
    intro x ns hx hn
    cases hn with
    | @cons _ _ m' w' _ ns ha' hn =>
      obtain rfl := h.2.2 _ _ _ _ _ _ _ ha ha'
      obtain ⟨M, hM, h1, h2, h3⟩ := h.1 _ _ _ _ ha
      obtain ⟨y, P, e1, e2, e3⟩ := ih h2 hn
      rw [hx] at h1
      cases h1
      exact ⟨y, M :: P, e1, .along hM h3 e2, by rw [List.map_cons, e3, hx]; rfl⟩

theorem drive_walk {A : ArcRel} {arcs : List MapArc} {time : MapArc → Nat → Prop} {ids : List Nat} (h : Matches A arcs time ids) (hi : ids.Nodup)
    {x y l : Nat} {P : List MapArc} (hd : Drive arcs time x P y l) : ∀ {s t : Nat}, ids[s]? = some x → ids[t]? = some y → ∃ p, Walk A s p t l := by
  have inj : ∀ {i j z : Nat}, ids[i]? = some z → ids[j]? = some z → i = j := by
    intro i j z h1 h2
    obtain ⟨l1, e1⟩ := List.getElem?_eq_some_iff.1 h1
    obtain ⟨l2, e2⟩ := List.getElem?_eq_some_iff.1 h2
    exact (hi.getElem_inj_iff).1 (e1.trans e2.symm)
  induction hd with
  | stay x =>
    intro s t h1 h2
    cases inj h1 h2
    exact ⟨[], .nil _⟩
  | @along M P y w l hM ht _ ih =>
    intro s t h1 h2
    obtain ⟨a, u, v, ha, hu, hv⟩ := h.2.1 M hM w ht
    obtain ⟨p, hp⟩ := ih hv h2
    cases inj h1 hu
    exact ⟨a :: p, .cons ha hp⟩

theorem walk_start {A : ArcRel} {s t l : Nat} {p : List Nat} (h : Walk A s p t l) (hst : s ≠ t) : ∃ a m w, A a s m w := by
  cases h with
  | nil => exact absurd rfl hst
  | cons ha _ => exact ⟨_, _, _, ha⟩

theorem nodesOf_exists {A : ArcRel} {s t l : Nat} {p : List Nat} (h : Walk A s p t l) : ∃ ns, NodesOf A s p ns := by
  induction h with
  | nil s => exact ⟨_, .nil s⟩
  | cons ha _ ih =>
    obtain ⟨ns, h⟩ := ih
    exact ⟨_, .cons ha h⟩

/-- A shortest path of the graph is a fastest drive on the map. -/
theorem fastest {A : ArcRel} {arcs : List MapArc} {time : MapArc → Nat → Prop} {ids : List Nat} (h : Matches A arcs time ids) (hi : ids.Nodup)
    {s t x y d : Nat} {as nodes : List Nat} (hx : ids[s]? = some x) (hy : ids[t]? = some y) (hr : ShortestRoute A s t d as nodes) :
    FastestDrive arcs time ids x y d nodes := by
  rcases hr with ⟨h1, ⟨_, h2⟩, h3, h4⟩ | ⟨h1, h2, rfl, rfl⟩
  · left
    obtain ⟨y', P, e1, e2, e3⟩ := walk_drive h h3 hx h4
    rw [hy] at e1
    cases e1
    refine ⟨h1, ⟨P, e2, e3⟩, fun p l hd => ?_⟩
    obtain ⟨q, hq⟩ := drive_walk h hi hd hx hy
    exact h2 _ _ hq
  · right
    refine ⟨h1, rfl, fun p l hd => ?_⟩
    obtain ⟨q, hq⟩ := drive_walk h hi hd hx hy
    exact h2 _ _ hq

theorem arc_way {all : Bool} {items : List OsmItem} (hg : ∀ i ∈ items, i.GoodIds) {a : MapArc} (h : a ∈ carArcs all items) :
    ∃ tags, WayOf items a tags := by
  unfold carArcs networkArcs at h
  obtain ⟨i, hi, ha⟩ := List.mem_flatMap.1 h
  cases i with
  | way id nodes tags =>
    simp only at ha
    split at ha
    · unfold arcsOfWay at ha
      obtain ⟨s, _, hs⟩ := List.mem_flatMap.1 ha
      have hid := (hg _ hi).1.1
      refine ⟨tags, id, nodes, hi, ?_⟩
      have : a.way = id.toNat := by
        rcases List.mem_append.1 hs with hs | hs
        · split at hs <;> simp at hs
          rw [hs]
        · split at hs <;> simp at hs
          rw [hs]
      omega
    · simp at ha
  | _ => simp at ha

/-- What is needed to load the graph of a file (as in C62), with lengths of at most 198 km per arc. -/
structure CarFile (fl : FloatOps) (inflate : List Byte → Option (List Byte)) (all : Bool) (file : List Byte) (items : List OsmItem) : Prop where
  encoded : ∃ required optional, EncodesFile inflate required optional file items
  reserved : ∀ i ∈ items, ¬ i.Reserved
  good : ∀ i ∈ items, i.GoodIds
  unique : UniqueWays items
  members : GoodMembers items
  nodes : ((usedWays (fun _ => usedByCars) items).flatMap Prod.snd).length ≤ 2 ^ 30
  ways : (usedWays (fun _ => usedByCars) items).length < invalidId
  lengths : ∀ a ∈ carArcs all items, ∃ d, fl.toUnsigned (segmentLength fl items a.seg) = some d ∧ d ≤ 198841
  arcs : (carArcs all items).length < 2 ^ 30
  turns : ∃ rs degree, relationData (decoderOf decodeRestrictions) items = some rs ∧
    (∀ v, (carArcs all items).countP (fun a => decide (a.tail = v)) ≤ degree) ∧
    rs.length * ((carArcs all items).length * degree + degree + 1) + 511 < 2 ^ 64

/-- The graph of a file, with the tails of its arcs. -/
structure CarNetwork (fl : FloatOps) (all : Bool) (items : List OsmItem) (g : CarGraph fl) (ids tail : List Nat) : Prop where
  tails : invertInverseVector g.firstOut = some tail
  count : g.firstOut.length = ids.length + 1
  routing : RoutingNodes all items ids
  latitude : g.latitude = ids.map fun x => (coordinates fl items x).1
  longitude : g.longitude = ids.map fun x => (coordinates fl items x).2
  arcCount : tail.length = (carArcs all items).length
  input : GraphInput ⟨ids.length, listArcs tail g.head g.travelTime⟩ tail g.head g.travelTime
  arcs : Matches (listArcs tail g.head g.travelTime) (carArcs all items) (DriveTime fl items) ids

theorem car_network {inflate : List Byte → Option (List Byte)} {all : Bool} {file : List Byte} {items : List OsmItem} (h : CarFile fl inflate all file items)
    (own own' : Bool) (k : Nat) (k' : Nat → Nat) {stdSort : SortFn} (hs : StdSort stdSort) (junk : Nat → Word) :
    ∃ g ids tail, simpleCar fl false inflate own own' k k' stdSort junk all file = .ok g ∧ CarNetwork fl all items g ids tail := by
  obtain ⟨required, optional, henc⟩ := h.encoded
  obtain ⟨rs, degree, hR, hdeg, hl2⟩ := h.turns
  have hinv : invalidId = 4294967295 := rfl
  obtain ⟨g, m, arcs, r, inc, e, hM, hp, _, hS, g1, g2, g3, g4, g5, hlen, ht, _⟩ := C62_car_graph (fl := fl) henc h.reserved h.good h.unique own own' k k' hs junk all
    (by have := h.nodes; omega) h.ways (fun a ha => by obtain ⟨d, e, _⟩ := h.lengths a ha; rw [e]; rfl) h.arcs hR hdeg hl2
  have hcsr : IsCSR (total m.routing) g.firstOut g.head := by rw [g1, g2]; exact hS.csr
  obtain ⟨tail, et, hT⟩ := invert_tail hcsr
  let ids := (List.range m.routing.size).filter (On m.routing)
  have hidl : ids.length = total m.routing := rfl
  have hon : ∀ x, On m.routing x = true → x < m.routing.size := by
    intro x hx
    unfold On isSet at hx
    by_contra hge
    simp [check, hge] at hx
  have hidx : ∀ x, On m.routing x = true → ids[onesBelow m.routing x]? = some x := fun x hx => filter_rank _ (hon x hx) hx
  have hsorted : ids.Pairwise (· < ·) := List.Pairwise.filter _ List.pairwise_lt_range
  have hnd : ids.Nodup := hsorted.imp (fun h => Nat.ne_of_lt h)
  have hmem : ∀ x, x ∈ ids ↔ On m.routing x = true := by
    intro x
    simp only [ids, List.mem_filter, List.mem_range]
    exact ⟨fun h => h.2, fun h => ⟨hon x h, h⟩⟩
  have hat : ∀ (i x : Nat), ids[i]? = some x → On m.routing x = true ∧ i = onesBelow m.routing x := by
    intro i x hi
    have hx := (hmem x).1 (List.mem_of_getElem? hi)
    refine ⟨hx, ?_⟩
    obtain ⟨l1, e1⟩ := List.getElem?_eq_some_iff.1 hi
    obtain ⟨l2, e2⟩ := List.getElem?_eq_some_iff.1 (hidx x hx)
    exact (hnd.getElem_inj_iff).1 (e1.trans e2.symm)
  have hhead : ∀ (a : Nat) M, arcs[a]? = some M → g.head[a]? = some (onesBelow m.routing M.head) := by
    intro a M ha
    rw [g2, hS.head, List.getElem?_map, ha]; rfl
  have htail : ∀ (a : Nat) M, arcs[a]? = some M → tail[a]? = some (onesBelow m.routing M.tail) := by
    intro a M ha
    obtain ⟨b, f, h1, h2, h3⟩ := hS.firstOut M.tail (hS.ends M (List.mem_of_getElem? ha)).1
    obtain ⟨h4, h5⟩ := (h3 a M ha).1 rfl
    rw [← g1] at h1 h2
    exact hT.own _ _ ⟨b, f, h1, h2, h4, h5⟩
  have htime : ∀ (a : Nat) M w, arcs[a]? = some M → (DriveTime fl items M w ↔ g.travelTime[a]? = some w) := by
    intro a M w ha
    have hcar : M ∈ carArcs all items := hp.mem_iff.1 (List.mem_of_getElem? ha)
    have hdist : ∀ d, fl.toUnsigned (segmentLength fl items M.seg) = some d → g.geoDistance[a]? = some d := by
      intro d hd
      obtain ⟨d', h1, h2⟩ : ∃ d', r.geoDistance[a]? = some d' ∧ fl.toUnsigned (segmentLength fl items M.seg) = some d' := by
        have hl := hS.distance.length_eq
        have hla := (List.getElem?_eq_some_iff.1 ha).1
        have := List.Forall₂.get hS.distance hla (by omega)
        simp only [List.get_eq_getElem] at this
        rw [(List.getElem?_eq_some_iff.1 ha).2] at this
        exact ⟨_, List.getElem?_eq_getElem (by omega), this⟩
      rw [hd] at h2
      cases h2
      rw [g3]; exact h1
    obtain ⟨d, hd, hd'⟩ := h.lengths M hcar
    constructor
    · rintro ⟨tags, v, d', h1, h2, h3, rfl⟩
      rw [hd] at h3
      cases h3
      exact ht a M tags v d ha h1 h2 (hdist d hd) (by omega)
    · intro hw
      obtain ⟨tags, htag⟩ := arc_way h.good hcar
      obtain ⟨v, ev, _⟩ := C46_speed_positive (lookup tags)
      have := ht a M tags v d ha htag ev (hdist d hd) (by omega)
      rw [hw] at this
      cases this
      exact ⟨tags, v, d, htag, ev, hd, rfl⟩
  have hheadl : g.head.length = arcs.length := by rw [g2, hS.head, List.length_map]
  have hget : ∀ (a : Nat), a < arcs.length → ∃ M, arcs[a]? = some M := fun a ha => ⟨_, List.getElem?_eq_getElem ha⟩
  refine ⟨g, ids, tail, e, et, by rw [hidl]; exact hcsr.length, ⟨hsorted, fun x => ?_⟩, ?_, ?_, ?_, ⟨rfl, hT.length.symm, ?_, ?_, ?_, ?_, ?_, ?_⟩, ?_, ?_, ?_⟩
  · rw [hmem, marks_routing hM]
  · apply List.ext_getElem?
    intro i
    by_cases hi : i < ids.length
    · have hi' := List.getElem?_eq_getElem hi
      obtain ⟨h1, h2⟩ := hat _ _ hi'
      rw [List.getElem?_map, hi', g4]
      have := hS.latitude _ h1
      rw [← h2] at this
      exact this
    · rw [List.getElem?_eq_none (by rw [g4, hS.latitudes]; omega), List.getElem?_eq_none (by rw [List.length_map]; omega)]
  · apply List.ext_getElem?
    intro i
    by_cases hi : i < ids.length
    · have hi' := List.getElem?_eq_getElem hi
      obtain ⟨h1, h2⟩ := hat _ _ hi'
      rw [List.getElem?_map, hi', g5]
      have := hS.longitude _ h1
      rw [← h2] at this
      exact this
    · rw [List.getElem?_eq_none (by rw [g5, hS.longitudes]; omega), List.getElem?_eq_none (by rw [List.length_map]; omega)]
  · rw [hT.length, hheadl, hp.length_eq]
  · rw [hlen, hT.length, hheadl]
  · exact isTail_lt hcsr hT
  · intro x hx
    obtain ⟨a, ha⟩ := List.getElem?_of_mem hx
    exact hcsr.head_lt a x ha
  · intro w hw
    obtain ⟨a, ha⟩ := List.getElem?_of_mem hw
    obtain ⟨M, hMa⟩ := hget a (by rw [← hlen]; exact (List.getElem?_eq_some_iff.1 ha).1)
    obtain ⟨tags, v, d, _, _, h3, rfl⟩ := (htime a M w hMa).2 ha
    obtain ⟨d', hd, hd'⟩ := h.lengths M (hp.mem_iff.1 (List.mem_of_getElem? hMa))
    rw [h3] at hd
    cases hd
    have : lightArc = 357913941 := rfl
    have := Nat.div_le_self (d * 3600) v
    omega
  · have hsub : (ids.map Int.ofNat) ⊆ (usedWays (fun _ => usedByCars) items).flatMap Prod.snd := by
      intro z hz
      obtain ⟨x, hx, rfl⟩ := List.mem_map.1 hz
      have h1 := (hM x).2.2.1 ((hmem x).1 hx)
      have key : IsModellingNode [] (usedWays (fun _ => usedByCars) items) x ∨ IsRoutingNode [] (usedWays (fun _ => usedByCars) items) x := by
        cases all
        · exact Or.inr (by simpa using h1)
        · exact Or.inl (by simpa using h1)
      rw [List.mem_flatMap]
      rcases key with (h2 | ⟨w, hw, hx⟩) | (h2 | ⟨w, hw, hx | hx⟩ | h2)
      · simp at h2
      · exact ⟨w, hw, hx⟩
      · simp at h2
      · exact ⟨w, hw, List.mem_of_mem_head? hx⟩
      · exact ⟨w, hw, List.mem_of_mem_getLast? hx⟩
      · exact List.mem_flatMap.1 (List.count_pos_iff.1 (Nat.lt_of_lt_of_le Nat.zero_lt_two h2))
    have hnd' : (ids.map Int.ofNat).Nodup := hnd.map (fun a b h => by simpa using h)
    have := (List.subperm_of_subset hnd' hsub).length_le
    rw [List.length_map] at this
    exact Nat.le_trans this h.nodes
  · rw [hT.length, hheadl, hp.length_eq]
    have := h.arcs
    omega
  · rintro a x y w ⟨h1, h2, h3⟩
    obtain ⟨M, hMa⟩ := hget a (by rw [← hlen]; exact (List.getElem?_eq_some_iff.1 h3).1)
    rw [htail a M hMa] at h1
    rw [hhead a M hMa] at h2
    cases h1; cases h2
    have hm := List.mem_of_getElem? hMa
    exact ⟨M, hp.mem_iff.1 hm, hidx _ (hS.ends M hm).1, hidx _ (hS.ends M hm).2, (htime a M w hMa).2 h3⟩
  · intro M hMc w hw
    have hm := hp.mem_iff.2 hMc
    obtain ⟨a, ha⟩ := List.getElem?_of_mem hm
    exact ⟨a, _, _, ⟨htail a M ha, hhead a M ha, (htime a M w ha).1 hw⟩, hidx _ (hS.ends M hm).1, hidx _ (hS.ends M hm).2⟩
  · rintro a x y w x' y' w' ⟨_, h1, _⟩ ⟨_, h2, _⟩
    rw [h1] at h2
    cases h2; rfl

/-! ### Contraction hierarchies and customizable contraction hierarchies -/

/-- C84, contraction hierarchies: the graph of a file is loaded; its nodes are the routing nodes of the file; and on every hierarchy
that is built for it (with any limit of the witness searches, and light arcs as in C22) all queries are answered with fastest drives
along the ways of the file. -/
theorem C84_hierarchy_routes {inflate : List Byte → Option (List Byte)} {all : Bool} {file : List Byte} {items : List OsmItem}
    (h : CarFile fl inflate all file items) (own own' : Bool) (k : Nat) (k' : Nat → Nat) {stdSort : SortFn} (hs : StdSort stdSort) (junk : Nat → Word) :
    ∃ g ids tail, simpleCar fl false inflate own own' k k' stdSort junk all file = .ok g ∧ invertInverseVector g.firstOut = some tail ∧
      g.firstOut.length = ids.length + 1 ∧ RoutingNodes all items ids ∧
      g.latitude = ids.map (fun x => (coordinates fl items x).1) ∧ g.longitude = ids.map (fun x => (coordinates fl items x).2) ∧
      ∀ (asserts : Bool) (maxPop : Nat) (junkF junkB : Nat → Word) (ch : Ch),
        Ch.build asserts ids.length tail g.head g.travelTime maxPop junkF junkB = some ch →
        (∀ w ∈ ch.forward.weight, w ≤ lightArc) → (∀ w ∈ ch.backward.weight, w ≤ lightArc) →
        ∀ (s t x y : Nat), ids[s]? = some x → ids[t]? = some y →
          ∃ q1 q2 q3 d nodes, (ChQuery.new ch).addSource s 0 = some q1 ∧ q1.addTarget t 0 = some q2 ∧ q2.run = some q3 ∧
            q3.getDistance = some d ∧ q3.getNodePath = some nodes ∧
            FastestDrive (carArcs all items) (DriveTime fl items) ids x y d nodes := by
  obtain ⟨g, ids, tail, e, hN⟩ := car_network h own own' k k' hs junk
  refine ⟨g, ids, tail, e, hN.tails, hN.count, hN.routing, hN.latitude, hN.longitude, ?_⟩
  intro asserts maxPop junkF junkB ch hb l1 l2 s t x y hx hy
  obtain ⟨q1, q2, q3, d, as, nodes, e1, e2, e3, e4, _, e6, hr⟩ := C22_C23_one_to_one ch ⟨ids.length, listArcs tail g.head g.travelTime⟩
    ⟨tail, g.head, g.travelTime, hN.input, asserts, maxPop, junkF, junkB, Or.inl hb, l1, l2⟩ s t (List.getElem?_eq_some_iff.1 hx).1 (List.getElem?_eq_some_iff.1 hy).1
  exact ⟨q1, q2, q3, d, nodes, e1, e2, e3, e4, e6, fastest hN.arcs (hN.routing.1.imp Nat.ne_of_lt) hx hy hr⟩

/-- C84, customizable contraction hierarchies: for every order of the nodes of which there are at most 65535, the hierarchy is built, customized for
the travel times, and answers all queries with fastest drives along the ways of the file. -/
theorem C84_customizable_routes {inflate : List Byte → Option (List Byte)} {all : Bool} {file : List Byte} {items : List OsmItem}
    (h : CarFile fl inflate all file items) (own own' : Bool) (k : Nat) (k' : Nat → Nat) {stdSort : SortFn} (hs : StdSort stdSort) (junk : Nat → Word) :
    ∃ g ids tail, simpleCar fl false inflate own own' k k' stdSort junk all file = .ok g ∧ invertInverseVector g.firstOut = some tail ∧
      g.firstOut.length = ids.length + 1 ∧ RoutingNodes all items ids ∧
      (ids ≠ [] → ids.length ≤ 65535 → ∀ (order : List Nat), IsPermutation order → order.length = ids.length →
        ∀ (callable filter : Bool), callable = true ∨ filter = true → ∀ (memory : Nat → Nat → Word),
        ∃ c m, Cch.build order tail g.head callable filter memory = some c ∧ (Metric.new c).customize c g.travelTime = some m ∧
          ∀ (addr s t x y : Nat), ids[s]? = some x → ids[t]? = some y →
            ∃ q1 q2 q3 d nodes, (CchQuery.new ⟨addr, c, m, g.travelTime⟩).addSource s 0 = some q1 ∧ q1.addTarget t 0 = some q2 ∧ q2.run = some q3 ∧
              q3.getDistance = some d ∧ q3.getNodePath = some nodes ∧
              FastestDrive (carArcs all items) (DriveTime fl items) ids x y d nodes) := by
  obtain ⟨g, ids, tail, e, hN⟩ := car_network h own own' k k' hs junk
  refine ⟨g, ids, tail, e, hN.tails, hN.count, hN.routing, ?_⟩
  intro hpos hn order hp hl callable filter hlog memory
  have hsize : tail.length < 2 ^ 31 := by
    have := hN.arcCount
    have := h.arcs
    omega
  have hi : CchInput order tail g.head callable filter :=
    ⟨hp, by intro e; subst e; exact hpos (List.eq_nil_of_length_eq_zero hl.symm), hN.input.head_len.symm, by rw [hl]; exact hN.input.tail_lt,
      by rw [hl]; exact hN.input.head_lt, hsize, hlog⟩
  obtain ⟨c, ec⟩ := C25_succeeds_small order tail g.head callable filter memory hi (by omega)
  have hw' : ∀ w ∈ g.travelTime, w ≤ infWeight := fun w hx => by
    have h1 := hN.input.weight_le w hx
    have h2 : lightArc = 357913941 := rfl
    have h3 : infWeight = 2147483647 := rfl
    omega
  obtain ⟨m, em, _⟩ := C27_customized_weights order tail g.head callable filter memory c hi ec g.travelTime hN.input.weight_len hw' (Metric.new c)
    (by simp [Metric.new]) (by simp [Metric.new])
  refine ⟨c, m, ec, em, fun addr s t x y hx hy => ?_⟩
  obtain ⟨q1, q2, q3, d, as, nodes, e1, e2, e3, e4, _, e6, hr⟩ := C30_C31_one_to_one (fun _ => c) ⟨addr, c, m, g.travelTime⟩
    ⟨ids.length, listArcs tail g.head g.travelTime⟩
    ⟨order, tail, g.head, callable, filter, memory, Metric.new c, hi, by omega, ec, hN.input.weight_len, hw', hl.symm, rfl, by simp [Metric.new],
      by simp [Metric.new], em, rfl⟩ s t (List.getElem?_eq_some_iff.1 hx).1 (List.getElem?_eq_some_iff.1 hy).1
  exact ⟨q1, q2, q3, d, nodes, e1, e2, e3, e4, e6, fastest hN.arcs (hN.routing.1.imp Nat.ne_of_lt) hx hy hr⟩

/-- The hierarchy is built, and its arcs are light, for networks with at most 250 routing nodes. -/
theorem small_hierarchy {all : Bool} {items : List OsmItem} {g0 : CarGraph fl} {ids0 tail0 : List Nat} (hN : CarNetwork fl all items g0 ids0 tail0)
    (hsmall : ids0.length ≤ 250)
    (hz : ∀ x y p q, Drive (carArcs all items) (DriveTime fl items) x p y 0 → Drive (carArcs all items) (DriveTime fl items) y q x 0 → x = y)
    (W : Nat) (hW : ∀ a ∈ carArcs all items, ∀ t, DriveTime fl items a t → t ≤ W) (hfit : ids0.length * W ≤ 357913941)
    (asserts : Bool) (hne : asserts = true → carArcs all items ≠ []) (junkF junkB : Nat → Word) :
    ∃ ch, Ch.build asserts ids0.length tail0 g0.head g0.travelTime 500 junkF junkB = some ch ∧
      (∀ w ∈ ch.forward.weight, w ≤ lightArc) ∧ (∀ w ∈ ch.backward.weight, w ≤ lightArc) := by
  have hnodup : ids0.Nodup := hN.routing.1.imp Nat.ne_of_lt
  have hzero : NoZeroCycles (listArcs tail0 g0.head g0.travelTime) := by
    intro s t p q hp hq
    by_cases hst : s = t
    · exact hst
    obtain ⟨x, hx⟩ : ∃ x, ids0[s]? = some x := by
      obtain ⟨a, m, w, ha⟩ := walk_start hp hst
      obtain ⟨M, _, h1, _⟩ := hN.arcs.1 _ _ _ _ ha
      exact ⟨_, h1⟩
    obtain ⟨np, hnp⟩ := nodesOf_exists hp
    obtain ⟨nq, hnq⟩ := nodesOf_exists hq
    obtain ⟨y, P, hy, hP, _⟩ := walk_drive hN.arcs hp hx hnp
    obtain ⟨x', Q, hx', hQ, _⟩ := walk_drive hN.arcs hq hy hnq
    rw [hx] at hx'
    cases hx'
    cases hz x y P Q hP hQ
    obtain ⟨l1, e1⟩ := List.getElem?_eq_some_iff.1 hx
    obtain ⟨l2, e2⟩ := List.getElem?_eq_some_iff.1 hy
    exact (hnodup.getElem_inj_iff).1 (e1.trans e2.symm)
  have hmax : ∀ w ∈ g0.travelTime, w ≤ W := by
    intro w hw
    obtain ⟨a, ha⟩ := List.getElem?_of_mem hw
    have hl := (List.getElem?_eq_some_iff.1 ha).1
    have h1 := hN.input.weight_len
    have h2 := hN.input.head_len
    obtain ⟨M, hM, _, _, ht⟩ := hN.arcs.1 a _ _ w ⟨List.getElem?_eq_getElem (show a < tail0.length by omega),
      List.getElem?_eq_getElem (show a < g0.head.length by omega), ha⟩
    exact hW M hM w ht
  obtain ⟨_, h2⟩ := C78_positive_graphs ⟨ids0.length, listArcs tail0 g0.head g0.travelTime⟩ tail0 g0.head g0.travelTime hN.input hzero asserts 500 W junkF junkB
    (fun ha hnil => hne ha (List.eq_nil_of_length_eq_zero (by rw [← hN.arcCount, hnil]; rfl)))
    (by show 2 * ids0.length ≤ 500; omega) hmax (by show ids0.length ≤ 65535; omega) hfit
  obtain ⟨ch, hb, hbf⟩ := h2 (by show ids0.length ≤ 46340; omega)
  obtain ⟨l1, l2⟩ := builtFor_light hbf
  exact ⟨ch, hb, l1, l2⟩

/-! ### The example program -/

variable {D : Type} [AddCommGroup D] [LinearOrder D]

/-- `x` is a nearest node to the position `p`, and within the radius. -/
def NearestNode (fl : FloatOps) (items : List OsmItem) (ids : List Nat) (dist : fl.F × fl.F → fl.F × fl.F → D) (radius : D) (p : fl.F × fl.F) (x : Nat) : Prop :=
  dist p (coordinates fl items x) ≤ radius ∧ ∀ z ∈ ids, dist p (coordinates fl items x) ≤ dist p (coordinates fl items z)

/-- What the program has to print for a pair of positions. If no node is closer than the radius, then it may say so (a node exactly at
the radius may be missed, see C40); otherwise it prints a fastest drive between nearest nodes. -/
def AnswerFor (fl : FloatOps) (items : List OsmItem) (ids : List Nat) (dist : fl.F × fl.F → fl.F × fl.F → D) (radius : D)
    (p : (fl.F × fl.F) × (fl.F × fl.F)) : RouteAnswer → Prop
  | .noSource => ∀ z ∈ ids, radius ≤ dist p.1 (coordinates fl items z)
  | .noTarget => (∃ z ∈ ids, NearestNode fl items ids dist radius p.1 z) ∧ ∀ z ∈ ids, radius ≤ dist p.2 (coordinates fl items z)
  | .route s t d nodes => ∃ x y, ids[s]? = some x ∧ ids[t]? = some y ∧ NearestNode fl items ids dist radius p.1 x ∧
      NearestNode fl items ids dist radius p.2 y ∧ FastestDrive (carArcs false items) (DriveTime fl items) ids x y d nodes

variable [IsOrderedAddMonoid D]

theorem nearest_node {items : List OsmItem} {ids : List Nat} {dist : fl.F × fl.F → fl.F × fl.F → D} {radius : D} (hlen : ids.length < invalidId)
    {p : fl.F × fl.F} {res : GeoResult D} (h1 : res.distance ≤ radius) (h2 : ∀ q ∈ ids.map (coordinates fl items), res.distance ≤ dist p q)
    (h3 : res = ⟨invalidId, radius⟩ ∨ ∃ q, (ids.map (coordinates fl items))[res.id]? = some q ∧ res.distance = dist p q) :
    (res.id = invalidId ∧ ∀ z ∈ ids, radius ≤ dist p (coordinates fl items z)) ∨
    (res.id ≠ invalidId ∧ ∃ x, ids[res.id]? = some x ∧ NearestNode fl items ids dist radius p x) := by
  rcases h3 with rfl | ⟨q, hq, hd⟩
  · exact Or.inl ⟨rfl, fun z hz => h2 _ (List.mem_map_of_mem hz)⟩
  · rw [List.getElem?_map, Option.map_eq_some_iff] at hq
    obtain ⟨x, hx, rfl⟩ := hq
    have := (List.getElem?_eq_some_iff.1 hx).1
    exact Or.inr ⟨by omega, x, hx, hd ▸ h1, fun z hz => hd ▸ h2 _ (List.mem_map_of_mem hz)⟩

theorem answerPairs_ok {items : List OsmItem} {ids : List Nat} {dist : fl.F × fl.F → fl.F × fl.F → D} {radius : D}
    (hlen : ids.length < invalidId) {index : GeoIndex (fl.F × fl.F)}
    (hix : ∀ q, ∃ res, index.nearest dist q radius = some res ∧ res.distance ≤ radius ∧ (∀ p ∈ ids.map (coordinates fl items), res.distance ≤ dist q p) ∧
      (res = ⟨invalidId, radius⟩ ∨ ∃ p, (ids.map (coordinates fl items))[res.id]? = some p ∧ res.distance = dist q p))
    {G : QGraph} (hGn : G.n = ids.length)
    (hroute : ∀ s t x y d as nodes, ids[s]? = some x → ids[t]? = some y → ShortestRoute G.arcs s t d as nodes →
      FastestDrive (carArcs false items) (DriveTime fl items) ids x y d nodes) :
    ∀ (input : List ((fl.F × fl.F) × (fl.F × fl.F))) {q : ChQuery} {S : QState}, QRep q S → S.graph = G →
      ∃ answers, answerPairs dist radius index q input = some answers ∧ List.Forall₂ (AnswerFor fl items ids dist radius) input answers
  | [], q, S, _, _ => ⟨[], rfl, .nil⟩
  | p :: l, q, S, hq, hS => by
    obtain ⟨r1, e1, a1, b1, c1⟩ := hix p.1
    obtain ⟨r2, e2, a2, b2, c2⟩ := hix p.2
    rcases nearest_node hlen a1 b1 c1 with ⟨i1, n1⟩ | ⟨i1, x, hx, nx⟩
    · obtain ⟨answers, ea, ha⟩ := answerPairs_ok hlen hix hGn hroute l hq hS
      refine ⟨.noSource :: answers, ?_, .cons n1 ha⟩
      simp [answerPairs, answerPair, e1, i1, ea]
    · rcases nearest_node hlen a2 b2 c2 with ⟨i2, n2⟩ | ⟨i2, y, hy, ny⟩
      · obtain ⟨answers, ea, ha⟩ := answerPairs_ok hlen hix hGn hroute l hq hS
        refine ⟨.noTarget :: answers, ?_, .cons ⟨⟨x, List.mem_of_getElem? hx, nx⟩, n2⟩ ha⟩
        simp [answerPairs, answerPair, e1, i1, e2, i2, ea]
      · subst hS
        obtain ⟨q0, q1, q2, q', S', d, as, nodes, f0, f1, f2, f3, f4, f5, hq', hS', hr⟩ := routeQuery_ok hq (s := r1.id) (t := r2.id)
          (by rw [hGn]; exact (List.getElem?_eq_some_iff.1 hx).1) (by rw [hGn]; exact (List.getElem?_eq_some_iff.1 hy).1)
        obtain ⟨answers, ea, ha⟩ := answerPairs_ok hlen hix hGn hroute l hq' hS'
        refine ⟨.route r1.id r2.id d nodes :: answers, ?_, .cons ⟨x, y, hx, hy, nx, ny, hroute _ _ _ _ _ _ _ hx hy hr⟩ ha⟩
        simp [answerPairs, answerPair, e1, i1, e2, i2, f0, f1, f2, f3, f4, f5, ea]

/-- C84, the example program of the documentation: given that the hierarchy is built and has light arcs (as in C22), the program answers
every input, with a fastest drive along the ways of the file between nearest nodes. -/
theorem C84_readme_program {inflate : List Byte → Option (List Byte)} {file : List Byte} {items : List OsmItem}
    (h : CarFile fl inflate false file items) (own own' : Bool) (k : Nat) (k' : Nat → Nat) {stdSort : SortFn} (hs : StdSort stdSort) (junk : Nat → Word)
    {dist : fl.F × fl.F → fl.F × fl.F → D} (hd : IsMetric dist) {radius : D} (hr : 0 ≤ radius)
    {nth : Nat → Nat → List (PointData (fl.F × fl.F) D) → Nat → List (PointData (fl.F × fl.F) D)} (hn : NthElementOk nth) :
    ∃ g ids tail, simpleCar fl false inflate own own' k k' stdSort junk false file = .ok g ∧ invertInverseVector g.firstOut = some tail ∧
      g.firstOut.length = ids.length + 1 ∧ RoutingNodes false items ids ∧
      ∀ (asserts : Bool) (junkF junkB : Nat → Word) (ch : Ch),
        Ch.build asserts ids.length tail g.head g.travelTime 500 junkF junkB = some ch →
        (∀ w ∈ ch.forward.weight, w ≤ lightArc) → (∀ w ∈ ch.backward.weight, w ≤ lightArc) →
        ∀ (input : List ((fl.F × fl.F) × (fl.F × fl.F))),
          ∃ answers, readmeMain fl false asserts inflate own own' k k' stdSort junk junkF junkB dist radius nth file input = .ok answers ∧
            List.Forall₂ (AnswerFor fl items ids dist radius) input answers := by
  obtain ⟨g, ids, tail, e, hN⟩ := car_network h own own' k k' hs junk
  refine ⟨g, ids, tail, e, hN.tails, hN.count, hN.routing, ?_⟩
  intro asserts junkF junkB ch hb l1 l2 input
  have hu : u32 = 4294967296 := rfl
  have hv : invalidId = 4294967295 := rfl
  have hnodes : ids.length ≤ 2 ^ 30 := hN.input.nodes
  have hzip : g.latitude.zip g.longitude = ids.map (coordinates fl items) := by
    rw [hN.latitude, hN.longitude, List.zip_map']
  obtain ⟨index, ei, hix⟩ := C40_nearest_neighbor_partial hd hn (ids.map (coordinates fl items))
  have hbf : BuiltFor ch ⟨ids.length, listArcs tail g.head g.travelTime⟩ :=
    ⟨tail, g.head, g.travelTime, hN.input, asserts, 500, junkF, junkB, Or.inl hb, l1, l2⟩
  obtain ⟨answers, ea, ha⟩ := answerPairs_ok (items := items) (ids := ids) (by omega) (fun q => by
      obtain ⟨res, r1, r2, r3, r4, _⟩ := hix q radius hr
      exact ⟨res, r1, r2, r3, r4⟩) (G := ⟨ids.length, listArcs tail g.head g.travelTime⟩) rfl
    (fun s t x y d as nodes hx hy hr => fastest hN.arcs (hN.routing.1.imp Nat.ne_of_lt) hx hy hr) input (chQuery_rep_new hbf.hierOk) rfl
  refine ⟨answers, ?_, ha⟩
  unfold readmeMain
  rw [e]
  simp only [Res.ok_bind, hN.tails, Res.ofOption_some, hN.count, Nat.add_sub_cancel, Nat.mod_eq_of_lt (show ids.length < u32 by omega), hb, hzip, ei, ea]
  simp [check, hN.latitude, hN.longitude]

/-- C84, the example program without any condition on the hierarchy: for files with at most 250 routing nodes in which every round trip over at least two
nodes takes some time, if the nodes times the longest arc stay below 99 hours. -/
theorem C84_readme_program_small {inflate : List Byte → Option (List Byte)} {file : List Byte} {items : List OsmItem}
    (h : CarFile fl inflate false file items) (own own' : Bool) (k : Nat) (k' : Nat → Nat) {stdSort : SortFn} (hs : StdSort stdSort) (junk : Nat → Word)
    {dist : fl.F × fl.F → fl.F × fl.F → D} (hd : IsMetric dist) {radius : D} (hr : 0 ≤ radius)
    {nth : Nat → Nat → List (PointData (fl.F × fl.F) D) → Nat → List (PointData (fl.F × fl.F) D)} (hn : NthElementOk nth)
    (ids : List Nat) (hids : RoutingNodes false items ids) (hsmall : ids.length ≤ 250)
    (hz : ∀ x y p q, Drive (carArcs false items) (DriveTime fl items) x p y 0 → Drive (carArcs false items) (DriveTime fl items) y q x 0 → x = y)
    (W : Nat) (hW : ∀ a ∈ carArcs false items, ∀ t, DriveTime fl items a t → t ≤ W) (hfit : ids.length * W ≤ 357913941)
    (asserts : Bool) (hne : asserts = true → carArcs false items ≠ []) (junkF junkB : Nat → Word) (input : List ((fl.F × fl.F) × (fl.F × fl.F))) :
    ∃ answers, readmeMain fl false asserts inflate own own' k k' stdSort junk junkF junkB dist radius nth file input = .ok answers ∧
      List.Forall₂ (AnswerFor fl items ids dist radius) input answers := by
  obtain ⟨g0, ids0, tail0, e0, hN⟩ := car_network h own own' k k' hs junk
  obtain ⟨g, ids', tail, e, ht, _, hR, hall⟩ := C84_readme_program h own own' k k' hs junk hd hr hn
  rw [e0] at e
  cases e
  rw [hN.tails] at ht
  cases ht
  have hsame : ∀ l1 l2 : List Nat, RoutingNodes false items l1 → RoutingNodes false items l2 → l1 = l2 := by
    intro l1 l2 h1 h2
    refine List.Perm.eq_of_pairwise (le := (· < ·)) (fun a b _ _ x y => by omega) h1.1 h2.1 ?_
    exact (List.perm_ext_iff_of_nodup (h1.1.imp Nat.ne_of_lt) (h2.1.imp Nat.ne_of_lt)).2 (fun x => by rw [h1.2, h2.2])
  obtain rfl := hsame _ _ hR hids
  obtain rfl := hsame _ _ hN.routing hids
  obtain ⟨ch, hb, l1, l2⟩ := small_hierarchy hN hsmall hz W hW hfit asserts hne junkF junkB
  exact hall asserts junkF junkB ch hb l1 l2 input

/-! ### An example -/

theorem roadCarFile : CarFile intOps (fun _ => none) false roadFile roadItems where
  encoded := ⟨_, _, roadFile_ok⟩
  reserved := roadReserved
  good := roadGood
  unique := roadUnique
  members := by
    intro id members tags h
    simp only [roadItems, List.mem_cons, List.not_mem_nil, or_false, reduceCtorEq, false_or, OsmItem.relation.injEq] at h
    obtain ⟨_, rfl, _⟩ := h
    exact ⟨by decide, by decide⟩
  nodes := by decide +kernel
  ways := by decide +kernel
  lengths := by
    rw [roadArcs.1]
    intro a ha
    simp only [List.mem_cons, List.not_mem_nil, or_false] at ha
    rcases ha with rfl | rfl <;> exact ⟨3200, by decide +kernel, by decide⟩
  arcs := by rw [roadArcs.1]; decide
  turns := ⟨[⟨9, .prohibitive, .uTurn, 7, 4, 7⟩], 2, by decide +kernel, by rw [roadArcs.1]; exact fun v => List.countP_le_length, by rw [roadArcs.1]; decide⟩

theorem roadTime : ∀ a ∈ carArcs false roadItems, ∀ t, DriveTime intOps roadItems a t → t = 460800 := by
  rw [roadArcs.1]
  rintro a ha t ⟨tags, v, d, ⟨id, nodes, hm, _⟩, h2, h3, rfl⟩
  simp only [roadItems, List.mem_cons, List.not_mem_nil, or_false, reduceCtorEq, false_or, OsmItem.way.injEq] at hm
  obtain ⟨_, _, rfl⟩ := hm
  have hv : waySpeed (lookup roadTags) = some 25 := by decide +kernel
  rw [hv] at h2
  cases h2
  have hd : intOps.toUnsigned (segmentLength intOps roadItems a.seg) = some 3200 := by
    simp only [List.mem_cons, List.not_mem_nil, or_false] at ha
    rcases ha with rfl | rfl <;> decide +kernel
  rw [hd] at h3
  cases h3
  rfl

theorem roadNodes : RoutingNodes false roadItems [3, 4] := by
  have hu : usedWays (fun _ => usedByCars) roadItems = [(7, [3, 5, 4])] := by decide +kernel
  refine ⟨by decide, fun x => ?_⟩
  rw [hu]
  unfold routingNode
  simp only [Bool.false_eq_true, if_false, decide_eq_true_eq, List.mem_cons, List.not_mem_nil, or_false]
  constructor
  · rintro (rfl | rfl) <;> decide
  · rintro (h | ⟨w, hw, h⟩ | h)
    · simp at h
    · simp only [List.mem_singleton] at hw
      subst hw
      simp at h
      omega
    · exfalso
      have : ([3, 5, 4] : List Int).count (x : Int) ≤ 1 := List.nodup_iff_count_le_one.1 (by decide) _
      simp only [List.flatMap_cons, List.flatMap_nil, List.append_nil] at h
      omega

/-- The metric of the example. -/
def cityBlocks (p q : Int × Int) : Int := |p.1 - q.1| + |p.2 - q.2|

/-- The positions of the example. -/
def roadPairs : List ((Int × Int) × (Int × Int)) := [((990, 2020), (0, 5))]

theorem cityBlocks_metric : IsMetric cityBlocks where
  self := by intro x; simp [cityBlocks]
  nonneg := by intro x y; unfold cityBlocks; positivity
  symm := by intro x y; simp only [cityBlocks, abs_sub_comm]
  triangle := by
    intro x y z
    unfold cityBlocks
    have h1 := abs_sub_le x.1 y.1 z.1
    have h2 := abs_sub_le x.2 y.2 z.2
    omega

/-- The hypotheses are satisfiable: the program is asked for the way from a position near the node 3 to one near the node 4, which takes
460800 milliseconds. -/
example (junk junkF junkB : Nat → Word) : ∃ s t nodes,
    readmeMain intOps false true (fun _ => none) false true 0 (fun _ => 0) (fun _ less l => l.mergeSort fun a b => !less b a) junk junkF junkB
      cityBlocks 1000 sortNth roadFile roadPairs = .ok [.route s t 460800 nodes] := by
  have hdrive : ∀ x p y l, Drive (carArcs false roadItems) (DriveTime intOps roadItems) x p y l → l = 460800 * p.length := by
    intro x p y l h
    induction h with
    | stay => rfl
    | along ha ht _ ih =>
      rw [roadTime _ ha _ ht, ih, List.length_cons]
      omega
  have hzero : ∀ x p y, Drive (carArcs false roadItems) (DriveTime intOps roadItems) x p y 0 → x = y := by
    intro x p y h
    have := hdrive _ _ _ _ h
    have : p = [] := List.eq_nil_of_length_eq_zero (by omega)
    subst this
    generalize (0 : Nat) = l at h
    cases h
    rfl
  obtain ⟨answers, e, h⟩ := C84_readme_program_small (fl := intOps) (D := Int) roadCarFile false true 0 (fun _ => 0) exStdSort junk (dist := cityBlocks) cityBlocks_metric
    (radius := 1000) (by decide) (nth := sortNth) sortNth_ok [3, 4] roadNodes (by decide) (fun x y p _ hp _ => hzero x p y hp) 460800
    (fun a ha t ht => Nat.le_of_eq (roadTime a ha t ht)) (by decide) true (fun _ => by rw [roadArcs.1]; simp) junkF junkB roadPairs
  unfold roadPairs at h
  cases h with
  | @cons _ a _ l h h' =>
  cases h'
  cases a with
  | noSource =>
    exact absurd (h 3 (by simp)) (by decide +kernel)
  | noTarget =>
    exact absurd (h.2 4 (by simp)) (by decide +kernel)
  | route s t d nodes =>
    obtain ⟨x, y, hx, hy, nx, ny, hf⟩ := h
    have mx := List.mem_of_getElem? hx
    have my := List.mem_of_getElem? hy
    simp only [List.mem_cons, List.not_mem_nil, or_false] at mx my
    have hx3 : x = 3 := by
      rcases mx with rfl | rfl
      · rfl
      · exact absurd (nx.1) (by decide +kernel)
    have hy4 : y = 4 := by
      rcases my with rfl | rfl
      · exact absurd (ny.1) (by decide +kernel)
      · rfl
    subst hx3 hy4
    have htime : DriveTime intOps roadItems ⟨7, ⟨3, [5], 4⟩, false⟩ 460800 :=
      ⟨roadTags, 25, 3200, ⟨7, [3, 5, 4], by simp [roadItems], rfl⟩, by decide +kernel, by decide +kernel, by decide⟩
    have hone : Drive (carArcs false roadItems) (DriveTime intOps roadItems) 3 [⟨7, ⟨3, [5], 4⟩, false⟩] 4 (460800 + 0) :=
      Drive.along (a := ⟨7, ⟨3, [5], 4⟩, false⟩) (by rw [roadArcs.1]; simp) htime (.stay 4)
    rcases hf with ⟨_, ⟨p, hp, _⟩, hmin⟩ | ⟨_, _, hmin⟩
    · have h1 := hmin _ _ hone
      have h2 := hdrive _ _ _ _ hp
      have h3 : p.length ≠ 0 := fun h0 => by
        have : p = [] := List.eq_nil_of_length_eq_zero h0
        subst this
        have := hzero 3 [] 4 (by rw [h2] at hp; exact hp)
        omega
      have : d = 460800 := by omega
      subst this
      exact ⟨s, t, nodes, e⟩
    · have := hmin _ _ hone
      omega

end RK.Props
