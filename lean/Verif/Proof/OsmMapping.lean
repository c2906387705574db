import Verif.Model.OsmMapping
import Verif.Spec.OsmGraph
import Verif.Spec.OsmReport
import Verif.Proof.BitVectorResize
/-! # Proofs about the model of `load_osm_id_mapping_from_pbf` -/
namespace RK.Osm
open BitVector

/-- The set bits of `v` are those in `S`. -/
def Holds (v : BitVector) (S : Nat → Prop) : Prop := ∃ B, v.Rep B ∧ ∀ x, at' B x = true ↔ S x

theorem holds_null : Holds BitVector.null (fun _ => False) :=
  ⟨[], rep_null, fun x => by simp [at']⟩

theorem Holds.congr {v : BitVector} {S T : Nat → Prop} (h : Holds v S) (e : ∀ x, S x ↔ T x) : Holds v T := by
  obtain ⟨B, h1, h2⟩ := h
  exact ⟨B, h1, fun x => (h2 x).trans (e x)⟩

theorem at_append_false {B : List Bool} {n x : Nat} : at' (B ++ List.replicate n false) x = at' B x := by
  unfold at'
  simp only [List.getD_eq_getElem?_getD]
  by_cases h : x < B.length
  · rw [List.getElem?_append_left h]
  · rw [List.getElem?_append_right (by omega), List.getElem?_eq_none (l := B) (by omega), List.getElem?_replicate]
    split <;> rfl

theorem Holds.grow {v : BitVector} {S : Nat → Prop} (h : Holds v S) {x : Nat} (hx : x < 2 ^ 63) :
    ∃ v' B, v.makeLargeEnoughFor x false = some v' ∧ v'.Rep B ∧ x < B.length ∧ ∀ y, at' B y = true ↔ S y := by
  obtain ⟨B, h1, h2⟩ := h
  obtain ⟨v', n, e, hr, hl⟩ := h1.makeLargeEnoughFor hx false (by intro h; cases h)
  exact ⟨v', _, e, hr, by simpa using hl, fun y => by rw [at_append_false, h2]⟩

theorem holds_set {v : BitVector} {B : List Bool} {S : Nat → Prop} (h : v.Rep B) {x : Nat} (hx : x < B.length)
    (h2 : ∀ y, at' B y = true ↔ S y) : ∃ v', v.set x = some v' ∧ Holds v' (fun y => S y ∨ y = x) := by
  obtain ⟨v', e, hr⟩ := h.set hx
  refine ⟨v', e, _, hr, fun y => ?_⟩
  rw [at_set hx]
  by_cases hy : y = x
  · simp [hy]
  · rw [if_neg hy, h2]; simp [hy]

theorem Holds.growSet {v : BitVector} {S : Nat → Prop} (h : Holds v S) {x : Nat} (hx : x < 2 ^ 63) :
    ∃ v', growSet v x = some v' ∧ Holds v' (fun y => S y ∨ y = x) := by
  obtain ⟨v1, B, e1, hr, hl, hs⟩ := h.grow hx
  obtain ⟨v2, e2, hh⟩ := holds_set hr hl hs
  exact ⟨v2, by simp [Osm.growSet, e1, e2], hh⟩

theorem Holds.assertSet {v : BitVector} {S : Nat → Prop} (h : Holds v S) {x : Nat} (hx : S x) : assertSet v x = some () := by
  obtain ⟨B, h1, h2⟩ := h
  have hb := (h2 x).2 hx
  unfold Osm.assertSet
  rw [h1.isSet (at_eq_true_lt hb), hb]
  rfl

/-- The set of routing nodes, `P` is the list of all nodes of ways so far, `E` are the ends of ways so far. -/
def RoutingSet (all : Bool) (A E P : List Nat) (x : Nat) : Prop :=
  if all then x ∈ A ∨ x ∈ P else x ∈ A ∨ x ∈ E ∨ 2 ≤ P.count x

/-- The state after the accepted nodes `A`, the ways with ids `W`, ends `E` and nodes `P`. -/
structure MapInv (all : Bool) (A W E P : List Nat) (m : IdMapping) : Prop where
  ways : Holds m.ways (· ∈ W)
  modelling : Holds m.modelling (fun x => x ∈ A ∨ x ∈ P)
  routing : Holds m.routing (RoutingSet all A E P)

theorem mapNode_ok {all : Bool} {A W E P : List Nat} {m : IdMapping} (h : MapInv all A W E P m) {x : Nat} (hx : x < 2 ^ 63) :
    ∃ m', mapNode m x = some m' ∧ MapInv all (A ++ [x]) W E P m' := by
  obtain ⟨v1, e1, h1⟩ := h.modelling.growSet hx
  obtain ⟨v2, e2, h2⟩ := h.routing.growSet hx
  refine ⟨⟨v1, v2, m.ways⟩, by simp [mapNode, e1, e2], h.ways, h1.congr fun y => ?_, h2.congr fun y => ?_⟩
  · simp only [List.mem_append, List.mem_singleton]; tauto
  · cases all <;> simp only [RoutingSet, List.mem_append, List.mem_singleton, if_true, Bool.false_eq_true, if_false] <;> tauto

theorem count_snoc {P : List Nat} {x y : Nat} : (P ++ [x]).count y = P.count y + if y = x then 1 else 0 := by
  rw [List.count_append, List.count_singleton]
  congr 1
  by_cases h : y = x
  · simp [h]
  · have : ¬ x = y := fun e => h e.symm
    simp [h, this]

theorem mapWayNode_ok {all : Bool} {A W E P : List Nat} {m : IdMapping} (h : MapInv all A W E P m) {x : Nat} (hx : x < 2 ^ 63) :
    ∃ m', mapWayNode all m x = some m' ∧ MapInv all A W E (P ++ [x]) m' := by
  cases all with
  | true =>
    obtain ⟨v1, B1, e1, r1, l1, s1⟩ := h.modelling.grow hx
    obtain ⟨v2, B2, e2, r2, l2, s2⟩ := h.routing.grow hx
    obtain ⟨v3, e3, h3⟩ := holds_set r1 l1 s1
    obtain ⟨v4, e4, h4⟩ := holds_set r2 l2 s2
    refine ⟨⟨v3, v4, m.ways⟩, by simp [mapWayNode, e1, e2, e3, e4], h.ways, h3.congr fun y => ?_, h4.congr fun y => ?_⟩
    · simp only [List.mem_append, List.mem_singleton]; tauto
    · simp only [RoutingSet, List.mem_append, List.mem_singleton, if_true]; tauto
  | false =>
    obtain ⟨v1, B1, e1, r1, l1, s1⟩ := h.modelling.grow hx
    by_cases hm : x ∈ A ∨ x ∈ P
    · obtain ⟨v2, e2, h2⟩ := h.routing.growSet hx
      have hb := (s1 x).2 hm
      refine ⟨⟨v1, v2, m.ways⟩, by simp [mapWayNode, e1, r1.isSet l1, hb, e2], h.ways, ⟨B1, r1, fun y => ?_⟩, h2.congr fun y => ?_⟩
      · rw [s1]
        simp only [List.mem_append, List.mem_singleton]
        constructor
        · tauto
        · rintro (h | h | rfl)
          · exact Or.inl h
          · exact Or.inr h
          · exact hm
      · simp only [RoutingSet, Bool.false_eq_true, if_false, count_snoc]
        by_cases hy : y = x
        · subst hy
          simp only [if_true, or_true, true_iff]
          rcases hm with h | h
          · exact Or.inl h
          · have := List.count_pos_iff.2 h
            right; right; omega
        · simp [hy]
    · have hb : at' B1 x = false := by
        by_contra hc
        exact hm ((s1 x).1 (by simpa using hc))
      obtain ⟨v2, e2, h2⟩ := holds_set r1 l1 s1
      refine ⟨⟨v2, m.routing, m.ways⟩, by simp [mapWayNode, e1, r1.isSet l1, hb, e2], h.ways, h2.congr fun y => ?_,
        h.routing.congr fun y => ?_⟩
      · simp only [List.mem_append, List.mem_singleton]; tauto
      · simp only [RoutingSet, Bool.false_eq_true, if_false, count_snoc]
        by_cases hy : y = x
        · subst hy
          have : P.count y = 0 := List.count_eq_zero.2 (fun h => hm (Or.inr h))
          simp [this]
        · simp [hy]

theorem mapWay_ok {all : Bool} {A W E P : List Nat} {m : IdMapping} (h : MapInv all A W E P m) {id : Nat} (hid : id < 2 ^ 63)
    {nodes : List Nat} (hn : ∀ x ∈ nodes, x < 2 ^ 63) {a b : Nat} (ha : nodes.head? = some a) (hb : nodes.getLast? = some b) :
    ∃ m', mapWay all m id nodes = some m' ∧ MapInv all A (W ++ [id]) (E ++ [a, b]) (P ++ nodes) m' := by
  obtain ⟨v, ev, hv⟩ := h.ways.growSet hid
  have h0 : MapInv all A (W ++ [id]) E (P ++ []) { m with ways := v } := by
    refine ⟨hv.congr fun y => by simp, ?_, ?_⟩
    · simpa using h.modelling
    · simpa using h.routing
  obtain ⟨m1, e1, h1⟩ := forEach_inv (f := mapWayNode all) (P := fun pre m => MapInv all A (W ++ [id]) E (P ++ pre) m) nodes [] _ h0 (by
    intro pre x post s he _ hs
    have hx : x ∈ nodes := by
      rw [List.nil_append] at he; rw [he]; simp
    obtain ⟨s', es, hs'⟩ := mapWayNode_ok hs (hn x hx)
    exact ⟨s', es, by simpa using hs'⟩)
  rw [List.nil_append] at h1
  have ma : a ∈ nodes := List.mem_of_head? ha
  have mb : b ∈ nodes := List.mem_of_getLast? hb
  have a1 := h1.modelling.assertSet (x := a) (Or.inr (List.mem_append_right _ ma))
  have a2 := h1.modelling.assertSet (x := b) (Or.inr (List.mem_append_right _ mb))
  cases all with
  | true =>
    exact ⟨m1, by simp [mapWay, ev, e1, ha, hb, a1, a2], h1.ways, h1.modelling, h1.routing.congr fun y => by simp [RoutingSet]⟩
  | false =>
    obtain ⟨v1, e2, h2⟩ := h1.routing.growSet (hn a ma)
    obtain ⟨v2, e3, h3⟩ := h2.growSet (hn b mb)
    refine ⟨{ m1 with routing := v2 }, by simp [mapWay, ev, e1, ha, hb, a1, a2, e2, e3], h1.ways, h1.modelling,
      h3.congr fun y => ?_⟩
    simp only [RoutingSet, Bool.false_eq_true, if_false, List.mem_append, List.mem_cons, List.not_mem_nil, or_false]
    tauto

/-! ### Ids above 2^63 -/

theorem doubleLoop_never {x : Nat} (hx : 2 ^ 63 ≤ x) : ∀ (fuel n : Nat), (n = 0 ∨ ∃ k, k ≤ 63 ∧ n = 2 ^ k) →
    doubleLoop fuel n x = none := by
  intro fuel
  induction fuel with
  | zero => intro n _; rfl
  | succ fuel ih =>
    intro n hn
    unfold doubleLoop
    rcases hn with rfl | ⟨k, hk, rfl⟩
    · rw [if_pos (by omega)]
      exact ih _ (Or.inl rfl)
    · have hb : 2 ^ k ≤ 2 ^ 63 := Nat.pow_le_pow_right (by omega) hk
      rw [if_pos (by omega)]
      apply ih
      by_cases h : k = 63
      · left; subst h; rfl
      · right
        refine ⟨k + 1, by omega, ?_⟩
        have : 2 ^ (k + 1) ≤ 2 ^ 63 := Nat.pow_le_pow_right (by omega) (by omega)
        rw [show 2 * 2 ^ k = 2 ^ (k + 1) by ring]
        apply Nat.mod_eq_of_lt
        norm_num at this; unfold u64; omega

theorem growSet_never {x : Nat} (hx : 2 ^ 63 ≤ x) : growSet BitVector.null x = none := by
  unfold growSet BitVector.makeLargeEnoughFor
  rw [rep_null.pad, doubleLoop_never hx 65 1 (Or.inr ⟨0, by omega, rfl⟩)]
  have : BitVector.null.size ≤ x := by simp [BitVector.null]
  simp [this]

/-! ### Events -/
open Spec

theorem tagsOf_show {m : TagMap (List Byte)} {tags : List (Str × Str)} (h : TagsShow m tags) : tagsOf m = lookup tags := by
  funext key
  unfold tagsOf
  rw [h key]
  rfl

theorem toNat_ofInt {x : Int} (h : 0 ≤ x ∧ x < 2 ^ 63) : (BitVec.ofInt 64 x).toNat = x.toNat := by
  rw [BitVec.toNat_ofInt]
  have := h.2
  rw [Int.emod_eq_of_lt h.1 (by norm_num at *; omega)]

theorem toNat_lt {x : Int} (h : 0 ≤ x ∧ x < 2 ^ 63) : x.toNat < 2 ^ 63 := by
  have := h.2
  norm_num at *
  omega

/-- The nodes at the ends of the ways. -/
def endsOf (w : Int × List Int) : List Int := w.2.head?.toList ++ w.2.getLast?.toList

theorem mapEvents_ok {isRoutingNode : Option (Word → Tags → Bool)} {isWayUsed : Word → Tags → Bool} {all : Bool} :
    ∀ {es : List OsmEvent} {its : List OsmItem}, List.Forall₂ Reported es its → (∀ i ∈ its, i.GoodIds) →
    ∀ {A W E P : List Nat} {m : IdMapping}, MapInv all A W E P m →
    ∃ m', forEach es m (mapEvent isRoutingNode isWayUsed all) = some m' ∧
      MapInv all (A ++ (acceptedNodes (accepts isRoutingNode) its).map Int.toNat)
        (W ++ (usedWays (fun id => isWayUsed (BitVec.ofInt 64 id)) its).map (·.1.toNat))
        (E ++ ((usedWays (fun id => isWayUsed (BitVec.ofInt 64 id)) its).flatMap endsOf).map Int.toNat)
        (P ++ ((usedWays (fun id => isWayUsed (BitVec.ofInt 64 id)) its).flatMap Prod.snd).map Int.toNat) m' := by
  intro es its h
  induction h with
  | nil => intro _ A W E P m hm; exact ⟨m, rfl, by simpa [acceptedNodes, usedWays] using hm⟩
  | @cons e i es its hr _ ih =>
    intro hg A W E P m hm
    have hi := hg i (by simp)
    have ih := @ih (fun j hj => hg j (by simp [hj]))
    cases e with
    | node id lat lon t =>
      cases i with
      | node id' lat' lon' tags =>
        obtain ⟨rfl, _, _, ht⟩ := hr
        by_cases ha : accepts isRoutingNode id' (lookup tags) = true
        · cases isRoutingNode with
          | none => simp [accepts] at ha
          | some f =>
            obtain ⟨m1, e1, h1⟩ := mapNode_ok hm (toNat_lt hi)
            obtain ⟨m2, e2, h2⟩ := ih h1
            refine ⟨m2, ?_, ?_⟩
            · have ha' : f (BitVec.ofInt 64 id') (lookup tags) = true := ha
              simp only [forEach, mapEvent, tagsOf_show ht, ha', if_true, toNat_ofInt hi, e1, Option.bind_some]
              exact e2
            · simpa [acceptedNodes, usedWays, ha] using h2
        · obtain ⟨m2, e2, h2⟩ := ih hm
          refine ⟨m2, ?_, by simpa [acceptedNodes, usedWays, ha] using h2⟩
          cases isRoutingNode with
          | none => exact e2
          | some f =>
            have ha' : ¬ f (BitVec.ofInt 64 id') (lookup tags) = true := ha
            simp only [forEach, mapEvent, tagsOf_show ht, ha', Option.bind_some]
            exact e2
      | _ => exact absurd hr (by simp [Reported])
    | way id nodes t =>
      cases i with
      | way id' nodes' tags =>
        obtain ⟨rfl, rfl, ht, _⟩ := hr
        by_cases hu : 2 ≤ nodes'.length ∧ isWayUsed (BitVec.ofInt 64 id') (lookup tags) = true
        · have hn : (nodes'.map (BitVec.ofInt 64)).map (·.toNat) = nodes'.map Int.toNat := by
            rw [List.map_map]
            exact List.map_congr_left fun x hx => toNat_ofInt (hi.2 x hx)
          have hne : nodes' ≠ [] := by rintro rfl; simp at hu
          obtain ⟨m1, e1, h1⟩ := mapWay_ok hm (id := id'.toNat) (toNat_lt hi.1) (nodes := nodes'.map Int.toNat)
            (by intro x hx; obtain ⟨y, hy, rfl⟩ := List.mem_map.1 hx; exact toNat_lt (hi.2 y hy))
            (a := (nodes'.head hne).toNat) (b := (nodes'.getLast hne).toNat)
            (by rw [List.head?_map, List.head?_eq_some_head hne]; rfl)
            (by rw [List.getLast?_map, List.getLast?_eq_some_getLast hne]; rfl)
          obtain ⟨m2, e2, h2⟩ := ih h1
          refine ⟨m2, ?_, ?_⟩
          · simp only [forEach, mapEvent, tagsOf_show ht, hn, List.length_map, ge_iff_le, hu, and_self, if_true, toNat_ofInt hi.1, e1, Option.bind_some]
            exact e2
          · have he : endsOf (id', nodes') = [nodes'.head hne, nodes'.getLast hne] := by
              simp [endsOf, List.head?_eq_some_head hne, List.getLast?_eq_some_getLast hne]
            simpa [acceptedNodes, usedWays, hu, he] using h2
        · obtain ⟨m2, e2, h2⟩ := ih hm
          refine ⟨m2, ?_, by simpa [acceptedNodes, usedWays, hu] using h2⟩
          have hu' : ¬ (2 ≤ (nodes'.map (BitVec.ofInt 64)).length ∧ isWayUsed (BitVec.ofInt 64 id') (lookup tags) = true) := by
            simpa using hu
          simp only [forEach, mapEvent, tagsOf_show ht, ge_iff_le, if_neg hu', Option.bind_some]
          exact e2
      | _ => exact absurd hr (by simp [Reported])
    | relation id mem t =>
      cases i with
      | relation id' mem' tags =>
        obtain ⟨m2, e2, h2⟩ := ih hm
        exact ⟨m2, e2, by simpa [acceptedNodes, usedWays] using h2⟩
      | _ => exact absurd hr (by simp [Reported])

theorem mapInv_empty {all : Bool} : MapInv all [] [] [] [] IdMapping.empty := by
  refine ⟨holds_null.congr fun y => by simp, holds_null.congr fun y => by simp, holds_null.congr fun y => ?_⟩
  cases all <;> simp [RoutingSet]

end RK.Osm
