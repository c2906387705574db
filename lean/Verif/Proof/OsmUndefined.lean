import Verif.Proof.OsmGraph
/-! # The graph builder if a length is not a number that fits into `unsigned` -/
namespace RK.Osm
open Spec BitVector

variable {fl : FloatOps} {σ : Type}

theorem addArcs_none {geo : Geometry} {d : WayDirection} {s : Scan fl σ} {x y w : Nat} {dist : fl.D} (hu : fl.toUnsigned dist = none) :
    addArcs geo d s x y dist w = none := by
  cases d <;> simp [addArcs, hu]

theorem wayLoop_none {E : Env fl} {mp : Mappers} {Bm Br Bw : List Bool} (hE : EnvOk E mp Bm Br Bw) {d : WayDirection} (hd : d ≠ .closed)
    (id : Nat) (u : σ) {la lo : List fl.F} (hc : Coords E.pos Bm la lo) (rs : List TurnRestriction) :
    ∀ (l : List Nat) (first : Nat) (inner : List Nat) (p : Nat) (as : List MapArc),
    (∀ x ∈ l, at' Bm x = true) → (first :: inner).getLast? = some p → at' Bm p = true →
    (∃ s ∈ segmentsFrom (at' Br) first inner l, fl.toUnsigned (E.length s) = none) →
    forEach l ⟨E.locM p, E.locR first, pathLength fl.add E.step fl.zeroD first inner, scanOf E as inner u la lo rs⟩
        (wayStep E.geo mp d (E.locW id)) = none
  | [], first, inner, p, as, _, _, _, hu => by simp [segmentsFrom] at hu
  | y :: l, first, inner, p, as, hm, hp, hpm, hu => by
    obtain ⟨cy, ey, my, _⟩ := local_eq hE.m hE.cm (hm y (by simp))
    obtain ⟨ry, er, mr⟩ := localOr_eq hE.r hE.cr y
    have hla := hc.lat y (hm y (by simp))
    have hlo := hc.lon y (hm y (by simp))
    have hpla := hc.lat p hpm
    have hplo := hc.lon p hpm
    have hlast : (first :: (inner ++ [y])).getLast? = some y := by
      rw [← List.cons_append, List.getLast?_append]; simp
    have hpl : fl.add (pathLength fl.add E.step fl.zeroD first inner) (E.step p y) =
        pathLength fl.add E.step fl.zeroD first (inner ++ [y]) := (pathLength_snoc inner _ first p y hp).symm
    by_cases hy : at' Br y = true
    · rw [if_pos hy] at mr
      have hne : rk (at' Br) y ≠ invalidId := by
        have := rk_lt_count hy
        have := hE.cr
        omega
      have hsegs : segmentsFrom (at' Br) first inner (y :: l) = ⟨first, inner, y⟩ :: segmentsFrom (at' Br) y [] l := by
        simp [segmentsFrom, hy]
      rw [hsegs] at hu
      have hstep : wayStep E.geo mp d (E.locW id) ⟨E.locM p, E.locR first, pathLength fl.add E.step fl.zeroD first inner, scanOf E as inner u la lo rs⟩ y =
          (addArcs E.geo d (scanOf E as inner u la lo rs) (E.locR first) (E.locR y) (E.length ⟨first, inner, y⟩) (E.locW id)).bind fun s =>
            some ⟨E.locM y, E.locR y, fl.zeroD, { s with scratchLat := [], scratchLon := [] }⟩ := by
        unfold wayStep
        simp only [ey, Option.bind_eq_bind, Option.bind_some, my, er, mr]
        rw [show (scanOf E as inner u la lo rs).lat = la from rfl, show (scanOf E as inner u la lo rs).lon = lo from rfl]
        simp only [hE.lm, hla, hlo, hpla, hplo, Option.bind_some, pushScratch_ok, popScratch_ok, if_neg hne]
        change (addArcs E.geo d (scanOf E as inner u la lo rs) (E.locR first) (rk (at' Br) y) (fl.add (pathLength fl.add E.step fl.zeroD first inner) (E.step p y)) (E.locW id)).bind _ = _
        rw [hpl, ← hE.lr]
        rfl
      rw [forEach, hstep]
      by_cases h0 : (fl.toUnsigned (E.length ⟨first, inner, y⟩)).isSome
      · obtain ⟨s, hs, hs2⟩ := hu
        rcases List.mem_cons.1 hs with rfl | hs
        · rw [hs2] at h0; cases h0
        obtain ⟨sc, ea⟩ := addArcs_ok E as id ⟨first, inner, y⟩ u la lo rs hd h0
        simp only at ea
        rw [ea, Option.bind_some, clearScratch_ok, Option.bind_some]
        exact wayLoop_none hE hd id u hc rs l y [] y (as ++ segArcs d id ⟨first, inner, y⟩)
          (fun x hx => hm x (by simp [hx])) rfl (hm y (by simp)) ⟨s, hs, hs2⟩
      · rw [addArcs_none (by simpa using h0)]
        rfl
    · rw [if_neg hy] at mr
      have hsegs : segmentsFrom (at' Br) first inner (y :: l) = segmentsFrom (at' Br) first (inner ++ [y]) l := by
        simp [segmentsFrom, hy]
      rw [hsegs] at hu
      rw [forEach]
      have : wayStep E.geo mp d (E.locW id) ⟨E.locM p, E.locR first, pathLength fl.add E.step fl.zeroD first inner, scanOf E as inner u la lo rs⟩ y =
          some ⟨E.locM y, E.locR first, pathLength fl.add E.step fl.zeroD first (inner ++ [y]), scanOf E as (inner ++ [y]) u la lo rs⟩ := by
        unfold wayStep
        simp only [ey, Option.bind_eq_bind, Option.bind_some, my, er, mr]
        rw [show (scanOf E as inner u la lo rs).lat = la from rfl, show (scanOf E as inner u la lo rs).lon = lo from rfl]
        simp only [hE.lm, hla, hlo, hpla, hplo, Option.bind_some, pushScratch_ok, if_true]
        rw [← hpl]
        rfl
      rw [this, Option.bind_some]
      exact wayLoop_none hE hd id u hc rs l first (inner ++ [y]) y as
        (fun x hx => hm x (by simp [hx])) hlast (hm y (by simp)) hu

theorem scanWay_none {E : Env fl} {mp : Mappers} {Bm Br Bw : List Bool} (hE : EnvOk E mp Bm Br Bw) {cb : WayCallback σ}
    {la lo : List fl.F} (hc : Coords E.pos Bm la lo) (rs : List TurnRestriction) (as : List MapArc) (u : σ) (id : Word) (nodes : List Int) (tags : Tags)
    (hid : at' Bw id.toNat = true) (hf : WayFits (at' Bm) (at' Br) nodes) {r : σ × WayDirection} (hcb : cb u id (rk (at' Bw) id.toNat) tags = some r)
    (hu : ∃ a ∈ arcsOfWay (at' Br) (dirForwards r.2) (dirBackwards r.2) id.toNat (nodes.map Int.toNat), fl.toUnsigned (E.length a.seg) = none) :
    scanWay E.geo mp cb (scanOf E as [] u la lo rs) id (nodes.map Int.toNat) tags = none := by
  obtain ⟨w, ew, mw⟩ := localOr_eq hE.w hE.cw id.toNat
  rw [if_pos hid] at mw
  have hne : rk (at' Bw) id.toNat ≠ invalidId := by have := rk_lt_count hid; have := hE.cw; omega
  unfold scanWay
  simp only [ew, Option.bind_eq_bind, Option.bind_some, mw, if_neg hne]
  rw [show (scanOf E as [] u la lo rs).user = u from rfl, hcb, Option.bind_some]
  rw [arcsOfWay_eq] at hu
  rw [show ({ scanOf E as [] u la lo rs with user := r.1 } : Scan fl σ) = scanOf E as [] r.1 la lo rs from rfl]
  obtain ⟨a, ha, ha2⟩ := hu
  obtain ⟨s, hs, has⟩ := List.mem_flatMap.1 ha
  by_cases hd : r.2 = .closed
  · rw [hd] at has
    simp [segArcs, dirForwards, dirBackwards] at has
  · rw [if_neg hd]
    have hseg : a.seg = s := by
      unfold segArcs at has
      rcases List.mem_append.1 has with h | h
      · split at h
        · rw [List.mem_singleton] at h; subst h; rfl
        · cases h
      · split at h
        · rw [List.mem_singleton] at h; subst h; rfl
        · cases h
    obtain ⟨hm, x0, b, ha, hb, hra, hrb⟩ := hf
    cases nodes with
    | nil => cases ha
    | cons x nodes =>
      simp only [List.head?_cons, Option.some.injEq] at ha
      subst ha
      simp only [List.map_cons, List.head?_cons, Option.bind_some, List.tail_cons]
      obtain ⟨p, ep, mp1, _⟩ := local_eq hE.m hE.cm (hm x (by simp))
      obtain ⟨q, eq, mq, _⟩ := local_eq hE.r hE.cr hra
      simp only [ep, eq, Option.bind_some, mp1, mq]
      have e1 := wayLoop_none hE hd id.toNat r.1 hc rs (nodes.map Int.toNat) x.toNat [] x.toNat as
        (by
          intro y hy
          obtain ⟨z, hz, rfl⟩ := List.mem_map.1 hy
          exact hm z (by simp [hz])) rfl (hm x (by simp)) ⟨s, hs, by rw [← hseg]; exact ha2⟩
      rw [hE.lm, hE.lr, hE.lw] at e1
      rw [show pathLength fl.add E.step fl.zeroD x.toNat [] = fl.zeroD from rfl] at e1
      rw [e1]
      rfl

theorem scanWays_none {E : Env fl} {mp : Mappers} {Bm Br Bw : List Bool} (hE : EnvOk E mp Bm Br Bw) {cb : WayCallback σ}
    (decoder : Option RestrictionDecoder) {la lo : List fl.F} (hc : Coords E.pos Bm la lo) (rs : List TurnRestriction)
    {es : List OsmEvent} {its : List OsmItem} (h : List.Forall₂ Reported es its) :
    (∀ i ∈ its, i.GoodIds) → (∀ i ∈ its, (⟨false, true, false⟩ : Wanted).wants i = true) →
    (∀ id nodes tags, OsmItem.way id nodes tags ∈ its → at' Bw id.toNat = true → WayFits (at' Bm) (at' Br) nodes) →
    ∀ {u u' : σ} {as new : List MapArc}, graphArcs (at' Bw) (at' Br) (rk (at' Bw)) (callbackOf cb) u its = some (u', new) →
    (∃ a ∈ new, fl.toUnsigned (E.length a.seg) = none) →
    forEach es (scanOf E as [] u la lo rs) (scanEvent E.geo mp cb decoder) = none := by
  induction h with
  | nil =>
    intro _ _ _ u u' as new hg hu
    simp only [graphArcs, Option.some.injEq, Prod.mk.injEq] at hg
    obtain ⟨rfl, rfl⟩ := hg
    simp at hu
  | @cons e i es its hr _ ih =>
    intro hg hn hf u u' as new hA hu
    have hi := hg i (by simp)
    have hi2 := hn i (by simp)
    have ih := @ih (fun j hj => hg j (by simp [hj])) (fun j hj => hn j (by simp [hj])) (fun id nodes tags h => hf id nodes tags (by simp [h]))
    cases i with
    | way id' nodes' tags =>
      cases e with
      | way id nodes t =>
        obtain ⟨rfl, rfl, ht, _⟩ := hr
        have eid : (BitVec.ofInt 64 id').toNat = id'.toNat := toNat_ofInt hi.1
        simp only [forEach, scanEvent, map_toNat_ofInt hi.2, tagsOf_show ht]
        by_cases hm : at' Bw id'.toNat = true
        · simp only [graphArcs, hm, if_true] at hA
          cases hcb : cb u (BitVec.ofInt 64 id') (rk (at' Bw) id'.toNat) (lookup tags) with
          | none => simp only [callbackOf, hcb, Option.map_none] at hA; cases hA
          | some r =>
            simp only [callbackOf, hcb, Option.map_some] at hA
            change (match graphArcs (at' Bw) (at' Br) (rk (at' Bw)) (callbackOf cb) r.1 its with | none => none | some (u, arcs) => _) = _ at hA
            cases hgr : graphArcs (at' Bw) (at' Br) (rk (at' Bw)) (callbackOf cb) r.1 its with
            | none => rw [hgr] at hA; cases hA
            | some q =>
              obtain ⟨u2, new2⟩ := q
              rw [hgr] at hA
              simp only [Option.some.injEq, Prod.mk.injEq] at hA
              obtain ⟨rfl, rfl⟩ := hA
              have hfit := hf id' nodes' tags (by simp) hm
              by_cases h0 : ∃ a ∈ arcsOfWay (at' Br) (dirForwards r.2) (dirBackwards r.2) id'.toNat (nodes'.map Int.toNat),
                  fl.toUnsigned (E.length a.seg) = none
              · rw [scanWay_none hE (cb := cb) hc rs as u (BitVec.ofInt 64 id') nodes' (lookup tags) (by rw [eid]; exact hm)
                  hfit (r := r) (by rw [eid]; exact hcb) (by rw [eid]; exact h0)]
                rfl
              · have h1 : ∀ a ∈ arcsOfWay (at' Br) (dirForwards r.2) (dirBackwards r.2) id'.toNat (nodes'.map Int.toNat),
                    (fl.toUnsigned (E.length a.seg)).isSome := by
                  intro a ha
                  by_contra hc
                  exact h0 ⟨a, ha, by simpa using hc⟩
                have := scanWay_ok hE (cb := cb) hc rs as u (BitVec.ofInt 64 id') nodes' (lookup tags) (by rw [eid]; exact hm)
                  hfit (r := r) (by rw [eid]; exact hcb) (by rw [eid]; exact h1)
                rw [this, Option.bind_some]
                obtain ⟨a, ha, ha2⟩ := hu
                rcases List.mem_append.1 ha with ha | ha
                · exact absurd ⟨a, ha, ha2⟩ h0
                · exact ih hgr ⟨a, ha, ha2⟩
        · simp only [graphArcs, hm] at hA
          rw [scanWay_other hE _ _ _ _ (by rw [eid]; simpa using hm), Option.bind_some]
          exact ih hA hu
      | _ => exact absurd hr (by simp [Reported])
    | _ => exact absurd hi2 (by simp [Wanted.wants])

/-- The scan is undefined if a length is not a number that fits. -/
theorem scan_none {inflate : List Byte → Option (List Byte)} {required optional : List Str} {file : List Byte} {items : List OsmItem}
    (h : EncodesFile inflate required optional file items) (hid : ∀ i ∈ items, ¬ i.Reserved) (hg : ∀ i ∈ items, i.GoodIds)
    (own assumeOrdered : Bool) (hord : assumeOrdered = true → items.Pairwise fun i j => kind i ≤ kind j) (k : Nat → Nat)
    {E : Env fl} {mp : Mappers} {Bm Br Bw : List Bool} (hE : EnvOk E mp Bm Br Bw) (hpos : E.pos = posOf fl items)
    {cb : WayCallback σ} {decoder : Option RestrictionDecoder}
    (hf : ∀ id nodes tags, OsmItem.way id nodes tags ∈ items → at' Bw id.toNat = true → WayFits (at' Bm) (at' Br) nodes)
    {u u' : σ} {as : List MapArc} (hA : graphArcs (at' Bw) (at' Br) (rk (at' Bw)) (callbackOf cb) u items = some (u', as))
    (hu : ∃ a ∈ as, fl.toUnsigned (E.length a.seg) = none) :
    (orderedRead inflate own ⟨true, true, decoder.isSome⟩ assumeOrdered k file).run (Scan.start (fl := fl) mp u) (scanEvent E.geo mp cb decoder) = .ub := by
  obtain ⟨es1, es2, es3, m', e, h1, h2, h3⟩ := read_ok h hid own decoder.isSome assumeOrdered hord k
  have fmem : ∀ {p : OsmItem → Bool} {i : OsmItem}, i ∈ items.filter p → i ∈ items ∧ p i = true := fun hi => List.mem_filter.1 hi
  obtain ⟨la, lo, e1, hc⟩ := scanNodes_ok hE cb decoder u [] h1 (fun i hi => hg i (fmem hi).1) (fun i hi => (fmem hi).2)
    (pre := []) (coords_start (fl := fl) (Bm := Bm))
  rw [List.nil_append, posOf_filter, ← hpos] at hc
  have e2 := scanWays_none hE (cb := cb) decoder hc [] h2 (fun i hi => hg i (fmem hi).1) (fun i hi => (fmem hi).2)
    (fun id nodes tags hi => hf id nodes tags (fmem hi).1) (u := u) (u' := u') (as := []) (new := as)
    (by rw [graphArcs_filter]; exact hA) hu
  unfold Out.run
  have e0 : Scan.start mp u = scanOf E [] [] u (List.replicate (Bm.count true) fl.zero) (List.replicate (Bm.count true) fl.zero) [] := by
    unfold Scan.start scanOf
    rw [hE.m.base.localIdCount]
    cases E.geo <;> rfl
  rw [e, e0]
  simp only [forEach_append, e1, Option.bind_some, e2, Option.bind_none]

end RK.Osm
