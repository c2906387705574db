import Verif.Proof.OsmMapping
import Verif.Props.OsmPbf
import Verif.Props.IdMapper
/-! # C59: which OpenStreetMap nodes and ways are used for routing -/
namespace RK.Props
open RK RK.Osm Spec BitVector

theorem on_holds {v : BitVector} {S : Nat → Prop} (h : Holds v S) (x : Nat) : On v x = true ↔ S x := by
  obtain ⟨B, h1, h2⟩ := h
  rw [on_eq h1, h2]

theorem mem_toNat {l : List Int} (h : ∀ x ∈ l, 0 ≤ x) (x : Nat) : x ∈ l.map Int.toNat ↔ (x : Int) ∈ l := by
  rw [List.mem_map]
  constructor
  · rintro ⟨y, hy, rfl⟩
    rwa [Int.toNat_of_nonneg (h y hy)]
  · intro hx; exact ⟨x, hx, rfl⟩

theorem count_toNat {l : List Int} (h : ∀ x ∈ l, 0 ≤ x) (x : Nat) : (l.map Int.toNat).count x = l.count (x : Int) := by
  induction l with
  | nil => rfl
  | cons y l ih =>
    have hy := h y (by simp)
    rw [List.map_cons, List.count_cons, List.count_cons, ih (fun z hz => h z (by simp [hz]))]
    congr 1
    by_cases e : y = (x : Int)
    · subst e; simp
    · have : y.toNat ≠ x := by omega
      simp [e, this]

/-- What the mapping tells about the id `x`. -/
def MappingIs (all : Bool) (accepted : List Int) (ways : List (Int × List Int)) (m : IdMapping) : Prop :=
  ∀ x : Nat, (On m.ways x = true ↔ ∃ w ∈ ways, w.1 = x) ∧
    (On m.modelling x = true ↔ IsModellingNode accepted ways x) ∧
    (On m.routing x = true ↔ if all then IsModellingNode accepted ways x else IsRoutingNode accepted ways x)

theorem accepted_filter {f : Option (Word → Tags → Bool)} {items : List OsmItem} :
    acceptedNodes (accepts f) (items.filter (⟨f.isSome, true, false⟩ : Wanted).wants) = acceptedNodes (accepts f) items := by
  induction items with
  | nil => rfl
  | cons i items ih =>
    unfold acceptedNodes at ih ⊢
    cases i with
    | node id lat lon tags =>
      cases f with
      | none => simp_all [Wanted.wants, List.filter_cons, accepts]
      | some g =>
        rw [List.filter_cons_of_pos (by rfl)]
        by_cases ha : accepts (some g) id (lookup tags) = true
        · rw [List.filterMap_cons_some (b := id) (by simp [ha]), List.filterMap_cons_some (b := id) (by simp [ha]), ih]
        · rw [List.filterMap_cons_none (by simp [ha]), List.filterMap_cons_none (by simp [ha]), ih]
    | _ => simp_all [Wanted.wants, List.filter_cons]

theorem used_filter {use : Int → TagLookup → Bool} {b : Bool} {items : List OsmItem} :
    usedWays use (items.filter (⟨b, true, false⟩ : Wanted).wants) = usedWays use items := by
  induction items with
  | nil => rfl
  | cons i items ih =>
    unfold usedWays at ih ⊢
    cases i <;> cases b <;> simp_all [Wanted.wants, List.filter_cons, List.filterMap_cons]

theorem good_used {use : Int → TagLookup → Bool} {items : List OsmItem} (hg : ∀ i ∈ items, i.GoodIds) :
    ∀ w ∈ usedWays use items, 0 ≤ w.1 ∧ ∀ x ∈ w.2, 0 ≤ x := by
  intro w hw
  obtain ⟨i, hi, h⟩ := List.mem_filterMap.1 hw
  cases i with
  | way id nodes tags =>
    simp only at h
    split at h
    · cases h
      have := hg _ hi
      exact ⟨this.1.1, fun x hx => (this.2 x hx).1⟩
    · cases h
  | _ => cases h

theorem good_accepted {acc : Int → TagLookup → Bool} {items : List OsmItem} (hg : ∀ i ∈ items, i.GoodIds) :
    ∀ x ∈ acceptedNodes acc items, 0 ≤ x := by
  intro w hw
  obtain ⟨i, hi, h⟩ := List.mem_filterMap.1 hw
  cases i with
  | node id lat lon tags =>
    simp only at h
    split at h
    · cases h
      exact (hg _ hi).1
    · cases h
  | _ => cases h

theorem mapping_ok {f : Option (Word → Tags → Bool)} {use : Word → Tags → Bool} {all : Bool} {es : List OsmEvent} {its : List OsmItem}
    (h : List.Forall₂ Reported es its) (hg : ∀ i ∈ its, i.GoodIds) :
    ∃ m, forEach es IdMapping.empty (mapEvent f use all) = some m ∧
      MappingIs all (acceptedNodes (accepts f) its) (usedWays (fun id => use (BitVec.ofInt 64 id)) its) m := by
  obtain ⟨m, e, hm⟩ := mapEvents_ok (isRoutingNode := f) (isWayUsed := use) (all := all) h hg mapInv_empty
  simp only [List.nil_append] at hm
  refine ⟨m, e, fun x => ?_⟩
  have hu := good_used (use := fun id => use (BitVec.ofInt 64 id)) hg
  have ha := good_accepted (acc := accepts f) hg
  have hm1 : (x ∈ (acceptedNodes (accepts f) its).map Int.toNat ∨
      x ∈ ((usedWays (fun id => use (BitVec.ofInt 64 id)) its).flatMap Prod.snd).map Int.toNat) ↔
      IsModellingNode (acceptedNodes (accepts f) its) (usedWays (fun id => use (BitVec.ofInt 64 id)) its) x := by
    rw [mem_toNat ha, mem_toNat, List.mem_flatMap]
    · rfl
    · intro y hy
      obtain ⟨w, hw, hy⟩ := List.mem_flatMap.1 hy
      exact (hu w hw).2 y hy
  refine ⟨?_, ?_, ?_⟩
  · rw [on_holds hm.ways, List.mem_map]
    constructor
    · rintro ⟨w, hw, rfl⟩
      exact ⟨w, hw, by rw [Int.toNat_of_nonneg (hu w hw).1]⟩
    · rintro ⟨w, hw, e⟩
      exact ⟨w, hw, by rw [e]; rfl⟩
  · rw [on_holds hm.modelling, hm1]
  · rw [on_holds hm.routing]
    unfold RoutingSet
    cases all with
    | true => simp only [if_true]; exact hm1
    | false =>
      simp only [Bool.false_eq_true, if_false]
      unfold IsRoutingNode
      rw [mem_toNat ha, count_toNat, mem_toNat, List.mem_flatMap]
      · simp only [endsOf, List.mem_append, Option.mem_toList, Option.mem_def]
      · intro y hy
        obtain ⟨w, hw, hy⟩ := List.mem_flatMap.1 hy
        apply (hu w hw).2 y
        simp only [endsOf, List.mem_append, Option.mem_toList] at hy
        rcases hy with hy | hy
        · exact List.mem_of_head? hy
        · exact List.mem_of_getLast? hy
      · intro y hy
        obtain ⟨w, hw, hy⟩ := List.mem_flatMap.1 hy
        exact (hu w hw).2 y hy

/-- C59: for every file with ids below 2^63, for every callback and every schedule of the reader, the result of
`load_osm_id_mapping_from_pbf` tells exactly which ways are used, which nodes are on them, and which are routing nodes. -/
theorem C59_id_mapping {inflate : List Byte → Option (List Byte)} {required optional : List Str} {file : List Byte} {items : List OsmItem}
    (h : EncodesFile inflate required optional file items) (hid : ∀ i ∈ items, ¬ i.Reserved) (hg : ∀ i ∈ items, i.GoodIds)
    (own : Bool) (k : Nat) (isRoutingNode : Option (Word → Tags → Bool)) (isWayUsed : Word → Tags → Bool) (all : Bool) :
    ∃ m, loadMapping inflate own k isRoutingNode isWayUsed all file = .ok m ∧
      MappingIs all (acceptedNodes (accepts isRoutingNode) items)
        (usedWays (fun id t => isWayUsed (BitVec.ofInt 64 id) t) items) m := by
  obtain ⟨es, t, e, hr⟩ := C56_unordered_partial h hid own (c := ⟨isRoutingNode.isSome, true, false⟩) (Or.inr (Or.inl rfl)) k
  obtain ⟨m, e1, hm⟩ := mapping_ok (f := isRoutingNode) (use := isWayUsed) (all := all) hr (fun i hi => hg i (List.mem_filter.1 hi).1)
  rw [accepted_filter, used_filter] at hm
  refine ⟨m, ?_, hm⟩
  unfold loadMapping Out.run
  rw [e, e1]

/-- Every routing node is a modelling node. -/
theorem C59_routing_nodes_are_modelling_nodes {all : Bool} {accepted : List Int} {ways : List (Int × List Int)} {m : IdMapping}
    (h : MappingIs all accepted ways m) {x : Nat} (hx : On m.routing x = true) : On m.modelling x = true := by
  rw [(h x).2.1]
  have := (h x).2.2.1 hx
  cases all with
  | true => simpa using this
  | false =>
    simp only [Bool.false_eq_true, if_false] at this
    rcases this with h | ⟨w, hw, h | h⟩ | h
    · exact Or.inl h
    · exact Or.inr ⟨w, hw, List.mem_of_head? h⟩
    · exact Or.inr ⟨w, hw, List.mem_of_getLast? h⟩
    · have := List.count_pos_iff.1 (show 0 < (ways.flatMap Prod.snd).count (x : Int) by omega)
      obtain ⟨w, hw, hy⟩ := List.mem_flatMap.1 this
      exact Or.inr ⟨w, hw, hy⟩

/-- C59 is violated by negative ids (programs for editing use them for new objects): if the first object that is reported is a
way with such an id which is used, then the function never returns. -/
theorem C59_negative_id_never_returns {inflate : List Byte → Option (List Byte)} {required optional : List Str} {file : List Byte}
    {items : List OsmItem} {id : Int} {nodes : List Int} {tags : List (Str × Str)}
    (h : EncodesFile inflate required optional file (.way id nodes tags :: items)) (hid : ∀ i ∈ items, ¬ i.Reserved)
    (h1 : -2 ^ 63 ≤ id) (h2 : id < -1) (hn : 2 ≤ nodes.length)
    (own : Bool) (k : Nat) (isRoutingNode : Option (Word → Tags → Bool)) (isWayUsed : Word → Tags → Bool) (all : Bool)
    (hu : isWayUsed (BitVec.ofInt 64 id) (lookup tags) = true) :
    loadMapping inflate own k isRoutingNode isWayUsed all file = .ub := by
  obtain ⟨es, t, e, hr⟩ := C56_unordered_partial h (by
    intro i hi
    rcases List.mem_cons.1 hi with rfl | hi
    · simp only [OsmItem.Reserved]; omega
    · exact hid i hi) own (c := ⟨isRoutingNode.isSome, true, false⟩) (Or.inr (Or.inl rfl)) k
  rw [List.filter_cons_of_pos (by rfl)] at hr
  cases hr with
  | @cons ev _ es' _ hr1 hr2 =>
    cases ev with
    | way id' nodes' t' =>
      obtain ⟨rfl, rfl, ht, _⟩ := hr1
      unfold loadMapping Out.run
      rw [e]
      have hbig : 2 ^ 63 ≤ (BitVec.ofInt 64 id).toNat := by
        rw [BitVec.toNat_ofInt]
        norm_num at *
        omega
      have : mapEvent isRoutingNode isWayUsed all IdMapping.empty (.way (BitVec.ofInt 64 id) (nodes.map (BitVec.ofInt 64)) t') = none := by
        have c : (nodes.map (BitVec.ofInt 64)).length ≥ 2 ∧ isWayUsed (BitVec.ofInt 64 id) (tagsOf t') = true :=
          ⟨by simpa using hn, by rw [tagsOf_show ht]; exact hu⟩
        simp only [mapEvent, if_pos c]
        unfold mapWay
        rw [show IdMapping.empty.ways = BitVector.null from rfl, growSet_never hbig]
        rfl
      simp only [forEach, this]
      rfl
    | _ => exact absurd hr1 (by simp [Reported])

/-- The way -5 with the nodes 3, 5. -/
def negWay : List Byte := ([8#8] ++ (0xFB#8 :: (List.replicate 8 0xFF#8 ++ [1#8]))) ++ smallMessage [.bytes 8 [6#8, 4#8]]

theorem negWay_ok : EncodesWay exStrings negWay (-5) [3, 5] [] := by
  refine ⟨[.varint 1 (2 ^ 64 - 5), .bytes 8 [6#8, 4#8]], [], .cons ⟨_, _, rfl, smallVarint (x := 8) (by decide), ?_⟩ (smallMessage_ok (by decide)),
    by decide, by decide, Or.inl ⟨by decide, rfl⟩, Or.inl ⟨by decide, rfl⟩, ⟨by decide, .nil⟩,
    Or.inr ⟨_, by decide, smallPacked (xs := [6, 4]) (by decide)⟩⟩
  exact ⟨⟨0xFB#8 :: List.replicate 8 0xFF#8, 1#8, rfl, by decide, by decide⟩, by decide, by decide, by decide⟩

/-- A block with this way. -/
def negBlock : List Byte :=
  smallMessage [.bytes 1 (smallMessage (exStrings.map (Field.bytes 1))), .bytes 2 (smallMessage [.bytes 3 negWay])]

theorem negBlock_ok : EncodesBlock ⟨exStrings, 100, 0, 0⟩ false negBlock [.way (-5) [3, 5] []] :=
  ⟨_, _, [[.way (-5) [3, 5] []]], smallMessage_ok (by decide), by decide, smallMessage_ok (by decide), by decide, by decide, Or.inl ⟨by decide, rfl⟩,
    by decide, by decide, by decide, Or.inl ⟨by decide, by decide⟩, Or.inl ⟨by decide, by decide⟩,
    .cons ⟨_, smallMessage_ok (by decide), .way negWay_ok .nil⟩ .nil, rfl⟩

/-- The hypotheses are satisfiable: a file with this way. -/
example : ∃ inflate required optional file, EncodesFile inflate required optional file (.way (-5) [3, 5] [] :: []) := by
  refine ⟨fun _ => none, [], [], (let hb := smallMessage [.varint 2 0, .bytes 1 []]
    let hh := smallMessage [.bytes 1 (text "OSMHeader"), .varint 3 hb.length]
    let db := smallMessage [.varint 2 negBlock.length, .bytes 1 negBlock]
    let dh := smallMessage [.bytes 1 (text "OSMData"), .varint 3 db.length]
    (bigEndian hh.length ++ hh ++ hb) ++ ((bigEndian dh.length ++ dh ++ db) ++ [])), ?_⟩
  refine ⟨_, _, _, _, _, rfl, ⟨_, _, rfl, smallMessage_ok (by decide), by decide, by decide, by decide, by decide⟩,
    ⟨_, smallMessage_ok (by decide), by decide, by decide, by decide, by decide, Or.inl ⟨by decide, by decide⟩⟩,
    smallMessage_ok (fs := []) (by decide), by decide, by decide, ?_⟩
  exact .data (others := []) ⟨_, _, rfl, smallMessage_ok (by decide), by decide, by decide, by decide, by decide⟩
    ⟨_, smallMessage_ok (by decide), by decide, by decide, by decide, by decide, Or.inl ⟨by decide, by decide⟩⟩ rfl rfl negBlock_ok .nil

/-- The hypotheses are satisfiable: the file of Props/OsmPbf. -/
theorem exGood : ∀ i ∈ exItems, i.GoodIds := by
  intro i hi
  simp only [exItems, List.mem_cons, List.not_mem_nil, or_false] at hi
  rcases hi with rfl | rfl | rfl | rfl <;> simp [OsmItem.GoodIds]

/-- A ring and a way across it: the nodes where they meet are routing nodes, the node 4 is not. -/
example : (∀ x : Int, IsRoutingNode [] [(7, [1, 2, 3, 4, 1]), (8, [2, 5, 3])] x ↔ x ∈ [1, 2, 3]) := by
  intro x
  simp only [IsRoutingNode, List.not_mem_nil, false_or, List.mem_cons, or_false, List.flatMap_cons, List.flatMap_nil, List.append_nil,
    exists_eq_or_imp, exists_eq_left, List.head?_cons, Option.some.injEq, List.cons_append, List.nil_append, List.getLast?_cons_cons, List.getLast?_singleton,
    List.count_cons, List.count_nil, beq_iff_eq]
  constructor
  · rintro ((h | h) | h)
    · omega
    · omega
    · split_ifs at h <;> omega
  · rintro (rfl | rfl | rfl) <;> simp

end RK.Props
