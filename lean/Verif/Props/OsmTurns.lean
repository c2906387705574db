import Verif.Proof.OsmForbidden
import Verif.Props.OsmGraph
/-! # C61: the forbidden turns of an OpenStreetMap file -/
namespace RK.Props
open RK RK.Osm Spec BitVector

variable {fl : FloatOps} {σ : Type}

/-- The turn from the arc `f` over the node `v` to the arc `t` fits to the direction: according to the coordinates of `v` and the
nodes before and behind it. -/
def TurnFits (fl : FloatOps) (items : List OsmItem) (arcs : List MapArc) (dir : TurnDirection) (v f t : Nat) : Prop :=
  ∃ a b, arcs[f]? = some a ∧ arcs[t]? = some b ∧
    fl.fits dir (coordinates fl items v) (coordinates fl items (beforeHead a)) (coordinates fl items (behindTail b)) = true

/-- The via node of a restriction; the id 2^64-1 stands for none. -/
def viaNode (x : TurnRestriction) : Option Nat := if x.viaNode = BitVec.allOnes 64 then none else some x.viaNode.toNat

/-- The turn from `f` to `t` is forbidden by one of the restrictions. -/
def ForbiddenTurn (fl : FloatOps) (items : List OsmItem) (arcs : List MapArc) (inc : Nat → Nat → Nat) (rs : List TurnRestriction) (f t : Nat) : Prop :=
  ∃ x ∈ rs, Forbids arcs (TurnFits fl items arcs x.direction) inc (decide (x.category = .mandatory)) x.fromWay.toNat (viaNode x) x.toWay.toNat f t

/-- `load_osm_routing_graph_from_pbf` with a decoder for turn restrictions: the graph is the same as without, and the forbidden
turns are exactly those forbidden by the restrictions that the decoder finds in the relations of the file, sorted by first and
second arc, each of them once. -/
theorem C61_forbidden_turns {inflate : List Byte → Option (List Byte)} {required optional : List Str} {file : List Byte} {items : List OsmItem}
    (h : EncodesFile inflate required optional file items) (hid : ∀ i ∈ items, ¬ i.Reserved) (hg : ∀ i ∈ items, i.GoodIds)
    {m : IdMapping} (hm : MappingFits m items) {debug : Bool} (hd : debug = true → m.modelling.size = m.routing.size)
    (own assumeOrdered : Bool) (hord : assumeOrdered = true → items.Pairwise fun i j => kind i ≤ kind j) (k : Nat → Nat)
    {stdSort : SortFn} (hs : StdSort stdSort) (junk : Nat → Word) {cb : WayCallback σ} {decoder : RestrictionDecoder} {geo : Geometry}
    {u u' : σ} {arcs : List MapArc} (hA : graphArcs (On m.ways) (On m.routing) (onesBelow m.ways) (callbackOf cb) u items = some (u', arcs))
    (hu : ∀ a ∈ arcs, (fl.toUnsigned (segmentLength fl items a.seg)).isSome)
    (hb : (arcs.flatMap (storedNodes (if geo = .none then .firstAndLast else geo))).length < 2 ^ 31) (hn : arcs.length < 2 ^ 32)
    {rs : List TurnRestriction} (hR : relationData (decoderOf decoder) items = some rs)
    {degree : Nat} (hdeg : ∀ v, arcs.countP (fun a => decide (a.tail = v)) ≤ degree) (hl : rs.length * (arcs.length * degree + degree + 1) + 511 < 2 ^ 64) :
    ∃ g arcs' inc, loadGraph fl debug inflate own k stdSort junk m cb u (some decoder) assumeOrdered geo file = .ok (g, u') ∧
      arcs'.Perm arcs ∧ SortedArcsOf m arcs arcs' ∧ Shows items m (if geo = .none then .firstAndLast else geo) arcs' g ∧ Chooses arcs' inc ∧
      g.forbiddenFrom.length = g.forbiddenTo.length ∧
      (g.forbiddenFrom.zip g.forbiddenTo).Pairwise (fun p q => p.1 < q.1 ∨ (p.1 = q.1 ∧ p.2 < q.2)) ∧
      ∀ f t, (f, t) ∈ g.forbiddenFrom.zip g.forbiddenTo ↔ ForbiddenTurn fl items arcs' inc rs f t := by
  have hw : wantedGeometry (some decoder) geo = if geo = .none then .firstAndLast else geo := by simp [wantedGeometry]
  obtain ⟨mp, Bm, Br, Bw, g, tail, arcs', e, hE, rm, rr, rw', har, h1, h2, h3, h4, h5⟩ := graph_ok h hid hg hm hd own assumeOrdered hord k stdSort junk
    (decoder := some decoder) (geo := geo) hA hu (by rw [hw]; exact hb) hR
  rw [hw] at hE h3 h4
  have hT : TurnsOk (envOf fl (if geo = .none then .firstAndLast else geo) m items) mp Bm Br Bw arcs' g tail := by
    refine ⟨hE, h3, fun a ha => har a (h1.mem_iff.1 ha), ?_, ?_, ?_, ?_⟩
    · intro a ha
      obtain ⟨id, _, _, _, hmk, e, _⟩ := graphArcs_mem hA a (h1.mem_iff.1 ha)
      rw [e, ← onF rw']; exact hmk
    · obtain ⟨p, hp, hF⟩ := h2
      have := lex_pairwise hp (l' := arcs'.map fun a => onesBelow m.routing a.tail) (by rw [List.length_map, hF.length_eq]) (by
        intro i j hij
        have hi : i < p.length := rd_some_lt (v := p) hij
        have hi' : i < arcs'.length := by rw [← hF.length_eq]; exact hi
        have := List.Forall₂.get hF hi hi'
        rw [List.getElem?_eq_getElem hi] at hij
        cases hij
        simp only [List.get_eq_getElem] at this
        rw [List.getElem?_map, List.getElem?_map, this, List.getElem?_eq_getElem hi']) (by simp)
      rw [h3.tail]
      exact this
    · change (if geo = .none then Geometry.firstAndLast else geo) ≠ .none
      split
      · simp
      · assumption
    · rw [h1.length_eq]; exact hn
  obtain ⟨Q, inc, e2, hc, hq, hQ⟩ := forbiddenTurns_ok hT hs junk (D := degree) (by
      intro v; rw [h1.countP_eq]; exact hdeg v) (rs := rs) (by rw [h1.length_eq]; exact hl) h5
  refine ⟨{ g with forbiddenFrom := Q.map (·.1), forbiddenTo := Q.map (·.2) }, arcs', inc, ?_, h1, h2, ?_, hc, ?_, ?_, ?_⟩
  · rw [e, e2]; rfl
  · obtain ⟨a1, a2, a3, a4, a5, a6, a7, a8, a9, a10, a11, a12, a13, a14⟩ := h4
    exact ⟨a1, a2, a3, a4, a5, a6, a7, a8, a9, a10, a11, a12, a13, a14⟩
  · simp
  · have : (Q.map (·.1)).zip (Q.map (·.2)) = Q := by rw [List.zip_map']; simp
    simp only [this]
    exact hq
  · have : (Q.map (·.1)).zip (Q.map (·.2)) = Q := by rw [List.zip_map']; simp
    intro f t
    simp only [this]
    rw [hQ]
    rfl

/-- Every turn that is forbidden goes from an arc to an arc which begins where the first one ends. -/
theorem C61_consecutive {items : List OsmItem} {arcs : List MapArc} {inc : Nat → Nat → Nat} (hc : Chooses arcs inc) {rs : List TurnRestriction}
    {f t : Nat} (h : ForbiddenTurn fl items arcs inc rs f t) :
    ∃ a b, arcs[f]? = some a ∧ arcs[t]? = some b ∧ a.head = b.tail := by
  have at' : ∀ {fits : Nat → Nat → Prop} {md : Bool} {w v w' : Nat}, ForbidsAt arcs fits md w v w' f t →
      ∃ a b, arcs[f]? = some a ∧ arcs[t]? = some b ∧ a.head = b.tail := by
    intro fits md w v w' h
    unfold ForbidsAt at h
    split at h
    · obtain ⟨t0, ⟨⟨a, h1, _, h2⟩, _, _⟩, ⟨b, h3, h4⟩, _⟩ := h
      exact ⟨a, b, h1, h3, by rw [h2, h4]⟩
    · obtain ⟨⟨a, h1, _, h2⟩, ⟨b, h3, _, h4⟩, _⟩ := h
      exact ⟨a, b, h1, h3, by rw [h2, h4]⟩
  obtain ⟨x, _, h⟩ := h
  unfold Forbids at h
  split at h
  · exact at' h
  · split at h
    · obtain ⟨v, out, h1, _, rfl, ⟨b, h3, h4⟩, _⟩ := h
      obtain ⟨a, h1, _, h2⟩ := hc _ _ h1
      exact ⟨a, b, h1, h3, by rw [h2, h4]⟩
    · obtain ⟨v, _, h⟩ := h
      exact at' h

/-- C61: the mapping is computed from a file, then the graph with the forbidden turns is loaded with it from the same file (without
debug assertions). Ways with the same id have the same nodes; there are fewer than 2^32-1 nodes, ways and arcs. -/
theorem C61_mapping_and_turns {inflate : List Byte → Option (List Byte)} {required optional : List Str} {file : List Byte} {items : List OsmItem}
    (h : EncodesFile inflate required optional file items) (hid : ∀ i ∈ items, ¬ i.Reserved) (hg : ∀ i ∈ items, i.GoodIds)
    (hw : ∀ id nodes nodes' tags tags', OsmItem.way id nodes tags ∈ items → OsmItem.way id nodes' tags' ∈ items → nodes = nodes')
    (own : Bool) (k : Nat) (isRoutingNode : Option (Word → Tags → Bool)) (isWayUsed : Word → Tags → Bool) (all : Bool)
    (hn : (acceptedNodes (accepts isRoutingNode) items).length +
      ((usedWays (fun id t => isWayUsed (BitVec.ofInt 64 id) t) items).flatMap Prod.snd).length < invalidId)
    (hc : (usedWays (fun id t => isWayUsed (BitVec.ofInt 64 id) t) items).length < invalidId) :
    ∃ m, loadMapping inflate own k isRoutingNode isWayUsed all file = .ok m ∧
      MappingIs all (acceptedNodes (accepts isRoutingNode) items) (usedWays (fun id t => isWayUsed (BitVec.ofInt 64 id) t) items) m ∧
      ∀ (own' assumeOrdered : Bool), (assumeOrdered = true → items.Pairwise fun i j => kind i ≤ kind j) → ∀ (k' : Nat → Nat)
        (stdSort : SortFn), StdSort stdSort → ∀ (junk : Nat → Word) (cb : WayCallback σ) (decoder : RestrictionDecoder) (geo : Geometry) (u u' : σ)
        (arcs : List MapArc) (rs : List TurnRestriction) (degree : Nat),
        graphArcs (On m.ways) (On m.routing) (onesBelow m.ways) (callbackOf cb) u items = some (u', arcs) →
        (∀ a ∈ arcs, (fl.toUnsigned (segmentLength fl items a.seg)).isSome) →
        (arcs.flatMap (storedNodes (if geo = .none then .firstAndLast else geo))).length < 2 ^ 31 → arcs.length < 2 ^ 32 →
        relationData (decoderOf decoder) items = some rs →
        (∀ v, arcs.countP (fun a => decide (a.tail = v)) ≤ degree) → rs.length * (arcs.length * degree + degree + 1) + 511 < 2 ^ 64 →
        ∃ g arcs' inc, loadGraph fl false inflate own' k' stdSort junk m cb u (some decoder) assumeOrdered geo file = .ok (g, u') ∧
          arcs'.Perm arcs ∧ SortedArcsOf m arcs arcs' ∧ Shows items m (if geo = .none then .firstAndLast else geo) arcs' g ∧ Chooses arcs' inc ∧
          g.forbiddenFrom.length = g.forbiddenTo.length ∧
          (g.forbiddenFrom.zip g.forbiddenTo).Pairwise (fun p q => p.1 < q.1 ∨ (p.1 = q.1 ∧ p.2 < q.2)) ∧
          ∀ f t, (f, t) ∈ g.forbiddenFrom.zip g.forbiddenTo ↔ ForbiddenTurn fl items arcs' inc rs f t := by
  obtain ⟨es, t, e, hr⟩ := C56_unordered_partial h hid own (c := ⟨isRoutingNode.isSome, true, false⟩) (Or.inr (Or.inl rfl)) k
  obtain ⟨m, e1, hf, hM⟩ := mapping_fits (all := all) hr rfl hg hw hn hc
  refine ⟨m, by unfold loadMapping Out.run; rw [e, e1], hM, ?_⟩
  intro own' assumeOrdered hord k' stdSort hs junk cb decoder geo u u' arcs rs degree hA hu hb hl hR hd hb2
  exact C61_forbidden_turns h hid hg hf (debug := false) (by simp) own' assumeOrdered hord k' hs junk hA hu hb hl hR hd hb2

/-- The decoder finds in each relation a U-turn at the node 4 of the way 7. -/
def exDecoder : RestrictionDecoder := fun id _ _ => some [⟨id, .prohibitive, .uTurn, 7, 4, 7⟩]

theorem exStdSort : StdSort (fun _ less l => l.mergeSort fun a b => !less b a) := by
  intro α less l h1 h2
  refine ⟨List.mergeSort_perm _ _, ?_⟩
  have := List.pairwise_mergeSort (le := fun a b => !less b a) ?_ ?_ l
  · exact this.imp (by simp)
  · intro a b c hab hbc
    simp only [Bool.not_eq_true'] at *
    exact h2 _ _ _ hab hbc
  · intro a b
    cases h : less b a with
    | false => simp
    | true => simp [h1 _ _ h]

/-- The hypotheses are satisfiable: both functions applied to the file of Props/OsmPbf, whose way 7 has the nodes 3, 5, 4. The turn
from the arc to 4 to the arc from 4 is forbidden. -/
example : ∃ (m : IdMapping) (g : RoutingGraph intOps) (arcs' : List MapArc), loadMapping (fun _ => none) false 0 none (fun _ _ => true) false exFile = .ok m ∧
    loadGraph intOps false (fun _ => none) false (fun _ => 0) (fun _ less l => l.mergeSort fun a b => !less b a) (fun _ => 0) m
      (fun (n : Nat) _ _ _ => some (n + 1, .openInBoth)) 0 (some exDecoder) true .none exFile = .ok (g, 1) ∧
      arcs'.Perm [⟨7, ⟨3, [5], 4⟩, false⟩, ⟨7, ⟨3, [5], 4⟩, true⟩] ∧
      ∀ f t : Nat, arcs'[f]? = some ⟨7, ⟨3, [5], 4⟩, false⟩ → arcs'[t]? = some ⟨7, ⟨3, [5], 4⟩, true⟩ → (f, t) ∈ g.forbiddenFrom.zip g.forbiddenTo := by
  obtain ⟨m, e, hM, h⟩ := C61_mapping_and_turns (fl := intOps) (σ := Nat) exFile_ok (by
      intro i hi
      simp only [exItems, List.mem_cons, List.not_mem_nil, or_false] at hi
      rcases hi with rfl | rfl | rfl | rfl <;> simp [OsmItem.Reserved]) exGood (by
      intro id n n' t t' h1 h2
      simp [exItems] at h1 h2
      rw [h1.2.1, h2.2.1]) false 0 none (fun _ _ => true) false (by decide) (by decide)
  obtain ⟨h1, h2⟩ := exMarks hM
  obtain ⟨g, arcs', inc, e2, hp, _, _, hc, _, _, hf⟩ := h false true (by intro _; simp [exItems, kind]) (fun _ => 0) _ exStdSort (fun _ => 0)
    (fun n _ _ _ => some (n + 1, .openInBoth)) exDecoder
    .none 0 1 _ [⟨9, .prohibitive, .uTurn, 7, 4, 7⟩] 2 (by rw [h1, h2]; exact exArcs _) (by intro a _; rfl) (by decide) (by decide) rfl (fun v => List.countP_le_length) (by decide)
  refine ⟨m, g, arcs', e, e2, hp, ?_⟩
  intro f t hf' ht
  rw [hf]
  have hnd : arcs'.Nodup := hp.nodup_iff.2 (by decide)
  refine ⟨_, List.mem_singleton.2 rfl, ⟨_, hf', rfl, rfl⟩, ⟨_, ht, rfl, rfl⟩, Or.inl ?_⟩
  have inj : ∀ {i j : Nat} {x : MapArc}, arcs'[i]? = some x → arcs'[j]? = some x → i = j := by
    intro i j x hi hj
    have hi' := rd_some_lt (v := arcs') hi
    exact (hnd.getElem_inj_iff (hi := hi') (hj := rd_some_lt (v := arcs') hj)).1 (by
      rw [List.getElem?_eq_getElem hi'] at hi
      rw [List.getElem?_eq_getElem (rd_some_lt (v := arcs') hj)] at hj
      rw [Option.some.injEq] at hi hj
      rw [hi, hj])
  rintro f' t' ⟨a, ha, _, ha2⟩ ⟨b, hb, _, hb2⟩
  have ma := hp.mem_iff.1 (List.mem_of_getElem? ha)
  have mb := hp.mem_iff.1 (List.mem_of_getElem? hb)
  simp only [List.mem_cons, List.not_mem_nil, or_false] at ma mb
  rcases ma with rfl | rfl
  · rcases mb with rfl | rfl
    · cases hb2
    · exact ⟨inj ha hf', inj hb ht⟩
  · cases ha2

/-! ### What restrictions without via node mean -/

/-- A restriction without via node forbids nothing if two arcs of the second way begin where an arc of the first one ends, even if
they begin at the same node. For example if the second way goes on in both directions there: the node which the two ways share is
taken for ambiguous although it is the only one, and the direction of the turn is not looked at. -/
theorem C61_two_arcs_ambiguous {arcs : List MapArc} {fits : Nat → Nat → Nat → Prop} {inc : Nat → Nat → Nat} {mandatory : Bool} {w w' v i t1 t2 : Nat}
    (hw : w ≠ w') (hi : Enters arcs w v i) (h1 : Leaves arcs w' v t1) (h2 : Leaves arcs w' v t2) (hne : t1 ≠ t2) (f t : Nat) :
    ¬ Forbids arcs fits inc mandatory w none w' f t := by
  unfold Forbids
  simp only
  rw [if_neg (fun h => hw h.2)]
  rintro ⟨_, ⟨t0, _, _, h⟩, _⟩
  exact hne ((h t1 v h1 ⟨i, hi⟩).trans (h t2 v h2 ⟨i, hi⟩).symm)

/-- Two ways which cross at the node 2: 1-2-3 and 4-2-5, all of them two-way. -/
def crossing : List MapArc :=
  [⟨7, ⟨1, [], 2⟩, false⟩, ⟨7, ⟨1, [], 2⟩, true⟩, ⟨7, ⟨2, [], 3⟩, false⟩, ⟨8, ⟨4, [], 2⟩, true⟩, ⟨8, ⟨2, [], 5⟩, false⟩,
   ⟨7, ⟨2, [], 3⟩, true⟩, ⟨8, ⟨4, [], 2⟩, false⟩, ⟨8, ⟨2, [], 5⟩, true⟩]

example : Enters crossing 7 2 0 ∧ Leaves crossing 8 2 3 ∧ Leaves crossing 8 2 4 ∧ (3 : Nat) ≠ 4 :=
  ⟨⟨_, rfl, rfl, rfl⟩, ⟨_, rfl, rfl, rfl⟩, ⟨_, rfl, rfl, rfl⟩, by decide⟩

/-- A mandatory restriction without via node from a way to itself, at a node where two arcs of the way begin (an inner node of a
two-way way): all turns from the chosen arc into the node are forbidden, so that it is a dead end. -/
theorem C61_straight_on_dead_end {arcs : List MapArc} {fits : Nat → Nat → Nat → Prop} {inc : Nat → Nat → Nat} {w v i o1 o2 : Nat}
    (hi : Enters arcs w v i) (h1 : Leaves arcs w v o1) (h2 : Leaves arcs w v o2) (hne : o1 ≠ o2) (t : Nat) (ht : Begins arcs v t) :
    Forbids arcs fits inc true w none w (inc w v) t := by
  unfold Forbids
  simp only [and_self, if_true]
  by_cases h : t = o1
  · exact ⟨v, o2, ⟨i, hi⟩, h2, rfl, ht, by rw [h]; exact hne⟩
  · exact ⟨v, o1, ⟨i, hi⟩, h1, rfl, ht, h⟩

/-- The same restriction at a node where exactly one arc of the way begins and one ends, as at both ends of a two-way way: all turns
are forbidden except for the U-turn. -/
theorem C61_straight_on_u_turn {arcs : List MapArc} {fits : Nat → Nat → Nat → Prop} {inc : Nat → Nat → Nat} (hc : Chooses arcs inc) {w v i o : Nat}
    (hi : Enters arcs w v i) (hi' : ∀ j, Enters arcs w v j → j = i) (ho : Leaves arcs w v o) (ho' : ∀ j, Leaves arcs w v j → j = o)
    (t : Nat) (ht : Begins arcs v t) : Forbids arcs fits inc true w none w i t ↔ t ≠ o := by
  unfold Forbids
  simp only [and_self, if_true]
  constructor
  · rintro ⟨v', out, h1, h2, e, ⟨b, h3, _⟩, h4⟩ rfl
    obtain ⟨a, ha, _, hv⟩ := hc w v' h1
    obtain ⟨a', ha', _, hv'⟩ := hi
    rw [← e, ha'] at ha
    cases ha
    obtain ⟨b', hb', _, hb''⟩ := ho
    obtain ⟨c, hc1, hc2⟩ := ht
    rw [h3] at hb' hc1
    cases hb'
    cases hc1
    rw [← hv, hv'] at h2
    exact h4 (ho' _ h2).symm
  · intro h
    exact ⟨v, o, ⟨i, hi⟩, ho, (hi' _ (hc w v ⟨i, hi⟩)).symm, ht, h⟩

example : (Enters crossing 7 2 0 ∧ Leaves crossing 7 2 1 ∧ Leaves crossing 7 2 2) ∧
    (Enters crossing 7 3 2 ∧ (∀ j, Enters crossing 7 3 j → j = 2) ∧ Leaves crossing 7 3 5 ∧ (∀ j, Leaves crossing 7 3 j → j = 5)) := by
  refine ⟨⟨⟨_, rfl, rfl, rfl⟩, ⟨_, rfl, rfl, rfl⟩, ⟨_, rfl, rfl, rfl⟩⟩, ⟨_, rfl, rfl, rfl⟩, ?_, ⟨_, rfl, rfl, rfl⟩, ?_⟩
  · rintro j ⟨a, h, h1, h2⟩
    rcases j with _ | _ | _ | _ | _ | _ | _ | _ | j <;> simp [crossing] at h <;> subst h <;> simp_all [MapArc.head]
  · rintro j ⟨a, h, h1, h2⟩
    rcases j with _ | _ | _ | _ | _ | _ | _ | _ | j <;> simp [crossing] at h <;> subst h <;> simp_all [MapArc.tail]

end RK.Props
