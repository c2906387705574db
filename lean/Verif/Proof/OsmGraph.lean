import Verif.Proof.OsmSort
import Verif.Model.OsmTurns
import Verif.Props.OsmPbf
/-! # Proofs about the graph of an OSM file: the scan as a whole -/
namespace RK.Osm
open Spec BitVector

variable {fl : FloatOps} {σ : Type}

abbrev isNode (i : OsmItem) : Bool := (⟨true, false, false⟩ : Wanted).wants i
abbrev isWay (i : OsmItem) : Bool := (⟨false, true, false⟩ : Wanted).wants i
abbrev isRelation (i : OsmItem) : Bool := (⟨false, false, true⟩ : Wanted).wants i

theorem position_filter (items : List OsmItem) (x : Nat) : position (items.filter isNode) x = position items x := by
  unfold position
  generalize (none : Option (Int × Int)) = acc
  induction items generalizing acc with
  | nil => rfl
  | cons i items ih => cases i <;> simp [List.filter_cons, isNode, Wanted.wants, ih]

theorem posOf_filter (items : List OsmItem) : posOf fl (items.filter isNode) = posOf fl items := by
  funext x
  unfold posOf
  rw [position_filter]

theorem graphArcs_filter (marked routing : Nat → Bool) (localId : Nat → Nat) (cb : σ → Int → Nat → TagLookup → Option (σ × Bool × Bool))
    (items : List OsmItem) (u : σ) :
    graphArcs marked routing localId cb u (items.filter isWay) = graphArcs marked routing localId cb u items := by
  induction items generalizing u with
  | nil => rfl
  | cons i items ih =>
    cases i with
    | way id nodes tags =>
      rw [List.filter_cons_of_pos (by rfl)]
      simp only [graphArcs, ih]
    | _ =>
      rw [List.filter_cons_of_neg (by simp [isWay, Wanted.wants]), ih]
      simp only [graphArcs]

theorem relationData_filter {ρ : Type} (f : Int → List (Nat × Int × Str) → TagLookup → Option (List ρ)) (items : List OsmItem) :
    relationData f (items.filter isRelation) = relationData f items := by
  induction items with
  | nil => rfl
  | cons i items ih =>
    cases i with
    | relation id members tags =>
      rw [List.filter_cons_of_pos (by rfl)]
      simp only [relationData, ih]
    | _ =>
      rw [List.filter_cons_of_neg (by simp [isRelation, Wanted.wants]), ih]
      simp only [relationData]

/-! ### Segments -/

theorem segmentsFrom_join (r : Nat → Bool) : ∀ (l : List Nat) (first : Nat) (inner : List Nat),
    (∃ z, (first :: inner ++ l).getLast? = some z ∧ r z = true) → (∀ y ∈ inner, r y = false) →
    (segmentsFrom r first inner l).flatMap (fun s => s.inner ++ [s.last]) = inner ++ l
  | [], first, inner, ⟨z, hz, hr⟩, hi => by
    rcases List.eq_nil_or_concat inner with rfl | ⟨i, y, rfl⟩
    · rfl
    · exfalso
      have : z = y := by
        rw [List.append_nil, List.concat_eq_append, ← List.cons_append, List.getLast?_append] at hz
        simpa using hz.symm
      have h2 := hi y (by simp)
      rw [this] at hr
      rw [hr] at h2; cases h2
  | y :: l, first, inner, ⟨z, hz, hr⟩, hi => by
    by_cases hy : r y = true
    · rw [segmentsFrom, if_pos hy, List.flatMap_cons, segmentsFrom_join r l y [] ⟨z, ?_, hr⟩ (by simp)]
      · simp
      · have : (y :: l).getLast? = some ((y :: l).getLast (by simp)) := List.getLast?_eq_some_getLast _
        rw [List.getLast?_append (l := first :: inner), this] at hz
        rw [show y :: [] ++ l = y :: l from rfl, this]
        exact hz
    · rw [segmentsFrom, if_neg hy, segmentsFrom_join r l first (inner ++ [y]) ⟨z, by rw [← hz]; simp, hr⟩ ?_]
      · simp
      · intro x hx
        rcases List.mem_append.1 hx with h | h
        · exact hi x h
        · rw [List.mem_singleton] at h; subst h; simpa using hy

theorem segmentsFrom_inner (r : Nat → Bool) : ∀ (l : List Nat) (first : Nat) (inner : List Nat),
    r first = true → (∀ y ∈ inner, r y = false) →
    ∀ s ∈ segmentsFrom r first inner l, r s.first = true ∧ r s.last = true ∧ ∀ y ∈ s.inner, r y = false
  | [], _, _, _, _, s, hs => by cases hs
  | y :: l, first, inner, hf, hi, s, hs => by
    by_cases hy : r y = true
    · rw [segmentsFrom, if_pos hy] at hs
      rcases List.mem_cons.1 hs with rfl | hs
      · exact ⟨hf, hy, hi⟩
      · exact segmentsFrom_inner r l y [] hy (by simp) s hs
    · rw [segmentsFrom, if_neg hy] at hs
      refine segmentsFrom_inner r l first (inner ++ [y]) hf ?_ s hs
      intro x hx
      rcases List.mem_append.1 hx with h | h
      · exact hi x h
      · rw [List.mem_singleton] at h; subst h; simpa using hy

theorem graphArcs_mem {marked routing : Nat → Bool} {localId : Nat → Nat} {cb : σ → Int → Nat → TagLookup → Option (σ × Bool × Bool)}
    {items : List OsmItem} {u u' : σ} {as : List MapArc} (h : graphArcs marked routing localId cb u items = some (u', as)) :
    ∀ a ∈ as, ∃ id nodes tags, OsmItem.way id nodes tags ∈ items ∧ marked id.toNat = true ∧ a.way = id.toNat ∧
      a.seg ∈ segments routing (nodes.map Int.toNat) := by
  induction items generalizing u u' as with
  | nil =>
    simp only [graphArcs, Option.some.injEq, Prod.mk.injEq] at h
    obtain ⟨_, rfl⟩ := h
    simp
  | cons i items ih =>
    cases i with
    | way id nodes tags =>
      simp only [graphArcs] at h
      by_cases hm : marked id.toNat = true
      · rw [if_pos hm] at h
        cases h1 : cb u id (localId id.toNat) (lookup tags) with
        | none => rw [h1] at h; cases h
        | some r =>
          rw [h1] at h
          simp only at h
          cases h2 : graphArcs marked routing localId cb r.1 items with
          | none => rw [h2] at h; cases h
          | some q =>
            rw [h2] at h
            simp only [Option.some.injEq, Prod.mk.injEq] at h
            obtain ⟨_, rfl⟩ := h
            intro a ha
            rcases List.mem_append.1 ha with ha | ha
            · unfold arcsOfWay at ha
              obtain ⟨s, hs, ha⟩ := List.mem_flatMap.1 ha
              refine ⟨id, nodes, tags, by simp, hm, ?_⟩
              rcases List.mem_append.1 ha with ha | ha
              · split at ha
                · rw [List.mem_singleton] at ha; subst ha; exact ⟨rfl, hs⟩
                · cases ha
              · split at ha
                · rw [List.mem_singleton] at ha; subst ha; exact ⟨rfl, hs⟩
                · cases ha
            · obtain ⟨id', nodes', tags', h3, h4⟩ := ih h2 a ha
              exact ⟨id', nodes', tags', by simp [h3], h4⟩
      · rw [if_neg hm] at h
        intro a ha
        obtain ⟨id', nodes', tags', h3, h4⟩ := ih h a ha
        exact ⟨id', nodes', tags', by simp [h3], h4⟩
    | _ =>
      simp only [graphArcs] at h
      intro a ha
      obtain ⟨id', nodes', tags', h3, h4⟩ := ih h a ha
      exact ⟨id', nodes', tags', by simp [h3], h4⟩

theorem arcs_routing {marked : Nat → Bool} {Bm Br : List Bool} {localId : Nat → Nat} {cb : σ → Int → Nat → TagLookup → Option (σ × Bool × Bool)}
    {items : List OsmItem} {u u' : σ} {as : List MapArc} (h : graphArcs marked (at' Br) localId cb u items = some (u', as))
    (hf : ∀ id nodes tags, OsmItem.way id nodes tags ∈ items → marked id.toNat = true → WayFits (at' Bm) (at' Br) nodes) :
    ∀ a ∈ as, at' Br a.tail = true ∧ at' Br a.head = true := by
  intro a ha
  obtain ⟨id, nodes, tags, h1, h2, _, h4⟩ := graphArcs_mem h a ha
  obtain ⟨_, x, y, hx, _, hrx, _⟩ := hf id nodes tags h1 h2
  cases nodes with
  | nil => cases hx
  | cons z nodes =>
    simp only [List.head?_cons, Option.some.injEq] at hx
    subst hx
    have := segmentsFrom_inner (at' Br) (nodes.map Int.toNat) z.toNat [] hrx (by simp) a.seg h4
    unfold MapArc.tail MapArc.head
    cases a.anti
    · exact ⟨this.1, this.2.1⟩
    · exact ⟨this.2.1, this.1⟩

/-! ### The order of the file -/

/-- Nodes before ways before relations. -/
def kind : OsmItem → Nat
  | .node .. => 0
  | .way .. => 1
  | .relation .. => 2

theorem filter_none {p : OsmItem → Bool} {items : List OsmItem} (h : ∀ i ∈ items, p i = false) : items.filter p = [] := by
  rw [List.filter_eq_nil_iff]
  intro i hi
  rw [h i hi]; decide

theorem ordered_split {items : List OsmItem} (h : items.Pairwise fun i j => kind i ≤ kind j) :
    items = items.filter isNode ++ items.filter isWay ++ items.filter isRelation := by
  induction items with
  | nil => rfl
  | cons i items ih =>
    rw [List.pairwise_cons] at h
    have ih := ih h.2
    cases i with
    | node id lat lon tags =>
      rw [List.filter_cons_of_pos (by rfl), List.filter_cons_of_neg (by simp [isWay, Wanted.wants]),
        List.filter_cons_of_neg (by simp [isRelation, Wanted.wants]), List.cons_append, List.cons_append, ← ih]
    | way id nodes tags =>
      have e : items.filter isNode = [] := filter_none (by
        intro i hi
        have := h.1 i hi
        revert this; cases i <;> simp [kind, isNode, Wanted.wants])
      rw [List.filter_cons_of_pos (p := isWay) (by rfl), List.filter_cons_of_neg (by simp [isNode, Wanted.wants]),
        List.filter_cons_of_neg (by simp [isRelation, Wanted.wants]), e, List.nil_append, List.cons_append]
      rw [e, List.nil_append] at ih
      rw [← ih]
    | relation id members tags =>
      have e : items.filter isNode = [] := filter_none (by
        intro i hi
        have := h.1 i hi
        revert this; cases i <;> simp [kind, isNode, Wanted.wants])
      have e' : items.filter isWay = [] := filter_none (by
        intro i hi
        have := h.1 i hi
        revert this; cases i <;> simp [kind, isWay, Wanted.wants])
      rw [List.filter_cons_of_pos (p := isRelation) (by rfl), List.filter_cons_of_neg (by simp [isNode, Wanted.wants]),
        List.filter_cons_of_neg (by simp [isWay, Wanted.wants]), e, e', List.nil_append, List.nil_append]
      rw [e, e', List.nil_append, List.nil_append] at ih
      rw [← ih]

theorem read_ok {inflate : List Byte → Option (List Byte)} {required optional : List Str} {file : List Byte} {items : List OsmItem}
    (h : EncodesFile inflate required optional file items) (hid : ∀ i ∈ items, ¬ i.Reserved) (own b assumeOrdered : Bool)
    (hord : assumeOrdered = true → items.Pairwise fun i j => kind i ≤ kind j) (k : Nat → Nat) :
    ∃ es1 es2 es3 m', orderedRead inflate own ⟨true, true, b⟩ assumeOrdered k file = (es1 ++ es2 ++ es3, .ok m') ∧
      List.Forall₂ Reported es1 (items.filter isNode) ∧ List.Forall₂ Reported es2 (items.filter isWay) ∧
      List.Forall₂ Reported es3 (if b then items.filter isRelation else []) := by
  have key : ∃ es m', orderedRead inflate own ⟨true, true, b⟩ assumeOrdered k file = (es, .ok m') ∧
      List.Forall₂ Reported es (items.filter isNode ++ items.filter isWay ++ if b then items.filter isRelation else []) := by
    cases assumeOrdered with
    | false =>
      obtain ⟨es, m', e, hr⟩ := C56_ordered_partial h hid own (c := ⟨true, true, b⟩) (Or.inl rfl) k
      refine ⟨es, m', e, ?_⟩
      have e1 : (fun i => (⟨true, true, b⟩ : Wanted).wants i && (⟨true, false, false⟩ : Wanted).wants i) = isNode := by
        funext i; cases i <;> simp [Wanted.wants, isNode]
      have e2 : (fun i => (⟨true, true, b⟩ : Wanted).wants i && (⟨false, true, false⟩ : Wanted).wants i) = isWay := by
        funext i; cases i <;> simp [Wanted.wants, isWay]
      have e3 : items.filter (fun i => (⟨true, true, b⟩ : Wanted).wants i && (⟨false, false, true⟩ : Wanted).wants i) =
          if b then items.filter isRelation else [] := by
        cases b with
        | true =>
          rw [if_pos rfl]; congr 1
          funext i; cases i <;> simp [Wanted.wants, isRelation]
        | false =>
          rw [if_neg (by decide)]
          apply filter_none
          intro i _; cases i <;> simp [Wanted.wants]
      rwa [e1, e2, e3] at hr
    | true =>
      rw [C56_assume_ordered]
      obtain ⟨es, m', e, hr⟩ := C56_unordered_partial h hid own (c := ⟨true, true, b⟩) (Or.inl rfl) (k 0)
      refine ⟨es, m', e, ?_⟩
      have hs := ordered_split (hord rfl)
      have : items.filter (⟨true, true, b⟩ : Wanted).wants =
          items.filter isNode ++ items.filter isWay ++ if b then items.filter isRelation else [] := by
        conv_lhs => rw [hs]
        rw [List.filter_append, List.filter_append]
        congr 1
        · congr 1
          · rw [List.filter_eq_self]
            intro i hi
            have := (List.mem_filter.1 hi).2
            revert this; cases i <;> simp [Wanted.wants, isNode]
          · rw [List.filter_eq_self]
            intro i hi
            have := (List.mem_filter.1 hi).2
            revert this; cases i <;> simp [Wanted.wants, isWay]
        · cases b with
          | true =>
            rw [if_pos rfl, List.filter_eq_self]
            intro i hi
            have := (List.mem_filter.1 hi).2
            revert this; cases i <;> simp [Wanted.wants]
          | false =>
            rw [if_neg (by decide)]
            apply filter_none
            intro i hi
            have := (List.mem_filter.1 hi).2
            revert this; cases i <;> simp [Wanted.wants, isRelation]
      rwa [this] at hr
  obtain ⟨es, m', e, hr⟩ := key
  refine ⟨(es.take (items.filter isNode ++ items.filter isWay).length).take (items.filter isNode).length,
    (es.take (items.filter isNode ++ items.filter isWay).length).drop (items.filter isNode).length,
    es.drop (items.filter isNode ++ items.filter isWay).length, m', ?_, ?_, ?_, ?_⟩
  · rw [List.take_append_drop, List.take_append_drop]; exact e
  · exact List.forall₂_take_append _ _ _ (List.forall₂_take_append _ _ _ hr)
  · exact List.forall₂_drop_append _ _ _ (List.forall₂_take_append _ _ _ hr)
  · exact List.forall₂_drop_append _ _ _ hr

theorem forEach_append (xs ys : List β) (s : τ) (f : τ → β → Option τ) : forEach (xs ++ ys) s f = (forEach xs s f).bind fun s => forEach ys s f := by
  induction xs generalizing s with
  | nil => rfl
  | cons x xs ih =>
    simp only [List.cons_append, forEach]
    cases f s x with
    | none => rfl
    | some s => exact ih s

/-- The restrictions that are found. -/
def restrictionsOf (decoder : Option RestrictionDecoder) (items : List OsmItem) : Option (List TurnRestriction) :=
  match decoder with
  | none => some []
  | some f => relationData (decoderOf f) items

theorem coords_start {Bm : List Bool} : Coords (posOf fl []) Bm (List.replicate (Bm.count true) fl.zero) (List.replicate (Bm.count true) fl.zero) :=
  ⟨by simp, by simp, fun x hx => by rw [rd_replicate (rk_lt_count hx)]; rfl, fun x hx => by rw [rd_replicate (rk_lt_count hx)]; rfl⟩

/-- The scan behind the nodes. -/
theorem scan_rest {items : List OsmItem} (hg : ∀ i ∈ items, i.GoodIds) {E : Env fl} {mp : Mappers} {Bm Br Bw : List Bool} (hE : EnvOk E mp Bm Br Bw)
    {cb : WayCallback σ} {decoder : Option RestrictionDecoder} {la lo : List fl.F} (hc : Coords E.pos Bm la lo) {es2 es3 : List OsmEvent}
    (h2 : List.Forall₂ Reported es2 (items.filter isWay)) (h3 : List.Forall₂ Reported es3 (if decoder.isSome then items.filter isRelation else []))
    (hf : ∀ id nodes tags, OsmItem.way id nodes tags ∈ items → at' Bw id.toNat = true → WayFits (at' Bm) (at' Br) nodes)
    {u u' : σ} {as : List MapArc} (hA : graphArcs (at' Bw) (at' Br) (rk (at' Bw)) (callbackOf cb) u items = some (u', as))
    (hu : ∀ a ∈ as, (fl.toUnsigned (E.length a.seg)).isSome)
    {rs : List TurnRestriction} (hR : restrictionsOf decoder items = some rs) :
    forEach (es2 ++ es3) (scanOf E [] [] u la lo []) (scanEvent E.geo mp cb decoder) = some (scanOf E as [] u' la lo rs) := by
  have fmem : ∀ {p : OsmItem → Bool} {i : OsmItem}, i ∈ items.filter p → i ∈ items ∧ p i = true := fun hi => List.mem_filter.1 hi
  have e2 := scanWays_ok hE (cb := cb) decoder hc [] h2 (fun i hi => hg i (fmem hi).1) (fun i hi => (fmem hi).2)
    (fun id nodes tags hi => hf id nodes tags (fmem hi).1) (u := u) (u' := u') (as := []) (new := as)
    (by rw [graphArcs_filter]; exact hA) hu
  have e3 : forEach es3 (scanOf E as [] u' la lo []) (scanEvent E.geo mp cb decoder) = some (scanOf E as [] u' la lo rs) := by
    cases decoder with
    | none =>
      simp only [Option.isSome_none, Bool.false_eq_true, if_false] at h3
      cases h3
      simp only [restrictionsOf, Option.some.injEq] at hR
      subst hR
      rfl
    | some f =>
      simp only [Option.isSome_some, if_true] at h3
      have := scanRelations_ok (E := E) (mp := mp) (cb := cb) (f := f) (la := la) (lo := lo) h3 (fun i hi => (fmem hi).2)
        (u := u') (as := as) (rs := []) (new := rs) (by rw [relationData_filter]; exact hR)
      simpa using this
  rw [List.nil_append] at e2
  rw [forEach_append, e2, Option.bind_some, e3]

theorem scan_start {E : Env fl} {mp : Mappers} {Bm Br Bw : List Bool} (hE : EnvOk E mp Bm Br Bw) (u : σ) :
    Scan.start mp u = scanOf E [] [] u (List.replicate (Bm.count true) fl.zero) (List.replicate (Bm.count true) fl.zero) [] := by
  unfold Scan.start scanOf
  rw [hE.m.base.localIdCount]
  cases E.geo <;> rfl

/-- The scan as a whole. -/
theorem scan_ok {inflate : List Byte → Option (List Byte)} {required optional : List Str} {file : List Byte} {items : List OsmItem}
    (h : EncodesFile inflate required optional file items) (hid : ∀ i ∈ items, ¬ i.Reserved) (hg : ∀ i ∈ items, i.GoodIds)
    (own assumeOrdered : Bool) (hord : assumeOrdered = true → items.Pairwise fun i j => kind i ≤ kind j) (k : Nat → Nat)
    {E : Env fl} {mp : Mappers} {Bm Br Bw : List Bool} (hE : EnvOk E mp Bm Br Bw) (hpos : E.pos = posOf fl items)
    {cb : WayCallback σ} {decoder : Option RestrictionDecoder}
    (hf : ∀ id nodes tags, OsmItem.way id nodes tags ∈ items → at' Bw id.toNat = true → WayFits (at' Bm) (at' Br) nodes)
    {u u' : σ} {as : List MapArc} (hA : graphArcs (at' Bw) (at' Br) (rk (at' Bw)) (callbackOf cb) u items = some (u', as))
    (hu : ∀ a ∈ as, (fl.toUnsigned (E.length a.seg)).isSome)
    {rs : List TurnRestriction} (hR : restrictionsOf decoder items = some rs) :
    ∃ la lo, (orderedRead inflate own ⟨true, true, decoder.isSome⟩ assumeOrdered k file).run (Scan.start mp u) (scanEvent E.geo mp cb decoder) =
        .ok (scanOf E as [] u' la lo rs) ∧ Coords E.pos Bm la lo := by
  obtain ⟨es1, es2, es3, m', e, h1, h2, h3⟩ := read_ok h hid own decoder.isSome assumeOrdered hord k
  have fmem : ∀ {p : OsmItem → Bool} {i : OsmItem}, i ∈ items.filter p → i ∈ items ∧ p i = true := fun hi => List.mem_filter.1 hi
  obtain ⟨la, lo, e1, hc⟩ := scanNodes_ok hE cb decoder u [] h1 (fun i hi => hg i (fmem hi).1) (fun i hi => (fmem hi).2)
    (pre := []) (coords_start (fl := fl) (Bm := Bm))
  rw [List.nil_append, posOf_filter, ← hpos] at hc
  refine ⟨la, lo, ?_, hc⟩
  unfold Out.run
  rw [e, scan_start hE]
  simp only [List.append_assoc]
  rw [forEach_append, e1, Option.bind_some, scan_rest hg hE hc h2 h3 hf hA hu hR]

end RK.Osm
