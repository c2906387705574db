import Verif.Model.OsmGraph
import Verif.Spec.OsmGraph
import Verif.Proof.IdMapper
import Verif.Proof.OsmMapping
/-! # Proofs about the scan of an OSM file for arcs -/
namespace RK.Osm
open Spec BitVector

/-! ### Segments -/

theorem pathLength_snoc {D : Type} {add : D → D → D} {dist : Nat → Nat → D} : ∀ (l : List Nat) (d : D) (p q y : Nat),
    (p :: l).getLast? = some q → pathLength add dist d p (l ++ [y]) = add (pathLength add dist d p l) (dist q y)
  | [], d, p, q, y, h => by
    simp only [List.getLast?_singleton, Option.some.injEq] at h
    subst h; rfl
  | x :: l, d, p, q, y, h => by
    rw [List.getLast?_cons_cons] at h
    exact pathLength_snoc l _ x q y h

/-- What the scan is about. -/
structure Env (fl : FloatOps) where
  geo : Geometry
  /-- The coordinates that the vectors hold for a node. -/
  pos : Nat → fl.F × fl.F
  locM : Nat → Nat
  locR : Nat → Nat
  locW : Nat → Nat

variable {fl : FloatOps} {σ : Type}

/-- The length of the step from `p` to `y`, computed as the code does. -/
def Env.step (E : Env fl) (p y : Nat) : fl.D := fl.geoDist (E.pos y).1 (E.pos y).2 (E.pos p).1 (E.pos p).2

/-- The length of a segment. -/
def Env.length (E : Env fl) (s : Segment) : fl.D := pathLength fl.add E.step fl.zeroD s.first (s.inner ++ [s.last])

def Env.dist (E : Env fl) (s : Segment) : Nat := (fl.toUnsigned (E.length s)).getD 0

/-- The nodes of an arc that are stored. -/
def stored (geo : Geometry) (l : List Nat) : List Nat :=
  match geo with
  | .none => []
  | .uncompressed => l
  | .firstAndLast => ends l

/-- The offsets into the stored nodes. -/
def offsets (geo : Geometry) (as : List MapArc) (n : Nat) : List Nat :=
  (List.range n).map fun i => ((as.take i).flatMap fun a => stored geo a.inner).length

/-- The variables if the arcs `as` have been found and the scratch vectors hold the nodes `sc`. -/
def scanOf (E : Env fl) (as : List MapArc) (sc : List Nat) (u : σ) (la lo : List fl.F) (rs : List TurnRestriction) : Scan fl σ where
  user := u
  tail := as.map fun a => E.locR a.tail
  head := as.map fun a => E.locR a.head
  geoDistance := as.map fun a => E.dist a.seg
  way := as.map fun a => E.locW a.way
  anti := as.map (·.anti)
  firstMod := if E.geo = .none then [] else (offsets E.geo as as.length).map (· % u32)
  modLat := (as.flatMap fun a => stored E.geo a.inner).map fun x => (E.pos x).1
  modLon := (as.flatMap fun a => stored E.geo a.inner).map fun x => (E.pos x).2
  lat := la
  lon := lo
  scratchLat := if E.geo = .none then [] else sc.map fun x => (E.pos x).1
  scratchLon := if E.geo = .none then [] else sc.map fun x => (E.pos x).2
  restrictions := rs

theorem firstAndLast_ends {α : Type} (l : List α) : firstAndLast l = some (ends l) := by
  unfold firstAndLast ends
  rcases l with _ | ⟨a, _ | ⟨b, l⟩⟩
  · rfl
  · rfl
  · have : (a :: b :: l).getLast? = some ((a :: b :: l).getLast (by simp)) := List.getLast?_eq_some_getLast _
    simp [this]

theorem ends_map {α β : Type} (f : α → β) (l : List α) : ends (l.map f) = (ends l).map f := by
  unfold ends
  rw [List.head?_map, List.getLast?_map, List.length_map]
  cases l.head? <;> cases l.getLast? <;> split <;> rfl

theorem offsets_snoc (geo : Geometry) (as : List MapArc) (a : MapArc) :
    offsets geo (as ++ [a]) (as ++ [a]).length = offsets geo as as.length ++ [(as.flatMap fun a => stored geo a.inner).length] := by
  unfold offsets
  rw [List.length_append, List.length_singleton, List.range_succ, List.map_append]
  congr 1
  · apply List.map_congr_left
    intro i hi
    rw [List.mem_range] at hi
    rw [List.take_append_of_le_length (by omega)]
  · simp

theorem onNewArc_ok (E : Env fl) (as : List MapArc) (a : MapArc) (sc : List Nat) (u : σ) (la lo : List fl.F) (rs : List TurnRestriction)
    (hsc : sc = a.inner) :
    onNewArc E.geo (scanOf E as sc u la lo rs) (E.locR a.tail) (E.locR a.head) (E.dist a.seg) (E.locW a.way) a.anti =
      some (scanOf E (as ++ [a]) sc u la lo rs) := by
  subst hsc
  have ho := offsets_snoc E.geo as a
  cases hg : E.geo with
  | none =>
    simp only [onNewArc, scanOf, hg, List.map_append, List.map_cons, List.map_nil, if_true, List.flatMap_append, List.flatMap_cons,
      List.flatMap_nil, stored, List.append_nil, List.map_nil]
  | uncompressed =>
    rw [hg] at ho
    simp only [onNewArc, scanOf, hg, ho, List.map_append, List.map_cons, List.map_nil, reduceCtorEq, if_false, List.flatMap_append, List.flatMap_cons,
      List.flatMap_nil, stored, List.append_nil, List.map_nil, List.length_map]
  | firstAndLast =>
    rw [hg] at ho
    simp only [onNewArc, scanOf, hg, ho, List.map_append, List.map_cons, List.map_nil, reduceCtorEq, if_false, List.flatMap_append, List.flatMap_cons,
      List.flatMap_nil, stored, List.append_nil, List.map_nil, List.length_map, firstAndLast_ends, Option.bind_eq_bind, Option.bind_some, ends_map]

theorem reverseScratch_ok (E : Env fl) (as : List MapArc) (sc : List Nat) (u : σ) (la lo : List fl.F) (rs : List TurnRestriction) :
    reverseScratch (scanOf E as sc u la lo rs) = scanOf E as sc.reverse u la lo rs := by
  unfold reverseScratch scanOf
  cases hg : E.geo <;> simp

/-- Forwards, backwards. -/
def dirForwards (d : WayDirection) : Bool := d = .openInBoth || d = .onlyForwards
def dirBackwards (d : WayDirection) : Bool := d = .openInBoth || d = .onlyBackwards

/-- The arcs of a segment. -/
def segArcs (d : WayDirection) (id : Nat) (s : Segment) : List MapArc :=
  (if dirForwards d then [⟨id, s, false⟩] else []) ++ (if dirBackwards d then [⟨id, s, true⟩] else [])

theorem addArcs_ok (E : Env fl) (as : List MapArc) (id : Nat) (s : Segment) (u : σ) (la lo : List fl.F) (rs : List TurnRestriction)
    {d : WayDirection} (hd : d ≠ .closed) (hu : (fl.toUnsigned (E.length s)).isSome) :
    ∃ sc, addArcs E.geo d (scanOf E as s.inner u la lo rs) (E.locR s.first) (E.locR s.last) (E.length s) (E.locW id) =
      some (scanOf E (as ++ segArcs d id s) sc u la lo rs) := by
  have hD : fl.toUnsigned (E.length s) = some (E.dist s) := by
    unfold Env.dist
    obtain ⟨n, hn⟩ := Option.isSome_iff_exists.1 hu
    rw [hn]; rfl
  have h1 := fun as => onNewArc_ok E as ⟨id, s, false⟩ s.inner u la lo rs rfl
  have h2 := fun as => onNewArc_ok E as ⟨id, s, true⟩ s.inner.reverse u la lo rs rfl
  simp only [MapArc.tail, MapArc.head, if_true, Bool.false_eq_true, if_false] at h1 h2
  cases d with
  | closed => exact absurd rfl hd
  | onlyForwards =>
    refine ⟨s.inner, ?_⟩
    simp only [addArcs, hD, Option.bind_eq_bind, Option.bind_some, h1]
    simp [segArcs, dirForwards, dirBackwards]
  | onlyBackwards =>
    refine ⟨s.inner.reverse, ?_⟩
    simp only [addArcs, hD, Option.bind_eq_bind, Option.bind_some, reverseScratch_ok, h2]
    simp [segArcs, dirForwards, dirBackwards]
  | openInBoth =>
    refine ⟨s.inner.reverse, ?_⟩
    simp only [addArcs, hD, Option.bind_eq_bind, Option.bind_some, reverseScratch_ok, h1, h2]
    simp [segArcs, dirForwards, dirBackwards]

theorem pushScratch_ok (E : Env fl) (as : List MapArc) (sc : List Nat) (u : σ) (la lo : List fl.F) (rs : List TurnRestriction) (x : Nat) :
    pushScratch E.geo (scanOf E as sc u la lo rs) (E.pos x).1 (E.pos x).2 = scanOf E as (sc ++ [x]) u la lo rs := by
  unfold pushScratch scanOf
  cases hg : E.geo <;> simp

theorem popScratch_ok (E : Env fl) (as : List MapArc) (sc : List Nat) (u : σ) (la lo : List fl.F) (rs : List TurnRestriction) (x : Nat) :
    popScratch E.geo (scanOf E as (sc ++ [x]) u la lo rs) = scanOf E as sc u la lo rs := by
  unfold popScratch scanOf
  cases hg : E.geo <;> simp

theorem clearScratch_ok (E : Env fl) (as : List MapArc) (sc : List Nat) (u : σ) (la lo : List fl.F) (rs : List TurnRestriction) :
    { scanOf E as sc u la lo rs with scratchLat := [], scratchLon := [] } = scanOf E as [] u la lo rs := by
  unfold scanOf
  cases hg : E.geo <;> simp

/-! ### One way -/

/-- The mappers belong to the bits, and the vectors hold the coordinates of the modelling nodes. -/
structure EnvOk (E : Env fl) (mp : Mappers) (Bm Br Bw : List Bool) : Prop where
  m : mp.modelling.Ok Bm
  r : mp.routing.Ok Br
  w : mp.way.Ok Bw
  cm : Bm.count true < invalidId
  cr : Br.count true < invalidId
  cw : Bw.count true < invalidId
  lm : E.locM = rk (at' Bm)
  lr : E.locR = rk (at' Br)
  lw : E.locW = rk (at' Bw)

theorem rk_lt_count {B : List Bool} {x : Nat} (h : at' B x = true) : rk (at' B) x < B.count true := by
  have hx := at_eq_true_lt h
  have h1 : rk (at' B) (x + 1) = rk (at' B) x + 1 := by
    unfold rk
    rw [List.range_succ, List.countP_append]
    simp [h]
  have h2 := rk_mono (at' B) (show x + 1 ≤ B.length by omega)
  have h3 : rk (at' B) B.length = B.count true := countP_at B _ (Nat.le_refl _)
  omega

theorem invalid_lt : invalidId < u32 := by decide

theorem local_eq {B : List Bool} {m : IDMapper} (h : m.Ok B) (hc : B.count true < invalidId) {x : Nat} (hx : at' B x = true) :
    ∃ y, m.base.toLocal x = some y ∧ y % u32 = rk (at' B) x ∧ rk (at' B) x ≠ invalidId := by
  refine ⟨_, h.base.toLocal hx, ?_, ?_⟩
  · have := rk_lt_count hx
    have := invalid_lt
    exact Nat.mod_eq_of_lt (by omega)
  · have := rk_lt_count hx
    omega

theorem localOr_eq {B : List Bool} {m : IDMapper} (h : m.Ok B) (hc : B.count true < invalidId) (x : Nat) :
    ∃ y, m.base.toLocalOr x invalidId = some y ∧ y % u32 = if at' B x = true then rk (at' B) x else invalidId := by
  refine ⟨_, h.base.toLocalOr x invalidId, ?_⟩
  by_cases hx : at' B x = true
  · have := rk_lt_count hx
    have := invalid_lt
    rw [if_pos hx]
    exact Nat.mod_eq_of_lt (by omega)
  · rw [if_neg hx]
    exact Nat.mod_eq_of_lt invalid_lt

/-- The vectors of coordinates hold `pos`. -/
structure Coords (pos : Nat → fl.F × fl.F) (Bm : List Bool) (la lo : List fl.F) : Prop where
  lenA : la.length = Bm.count true
  lenO : lo.length = Bm.count true
  lat : ∀ x, at' Bm x = true → rd la (rk (at' Bm) x) = some (pos x).1
  lon : ∀ x, at' Bm x = true → rd lo (rk (at' Bm) x) = some (pos x).2

theorem wayLoop_ok {E : Env fl} {mp : Mappers} {Bm Br Bw : List Bool} (hE : EnvOk E mp Bm Br Bw) {d : WayDirection} (hd : d ≠ .closed)
    (id : Nat) (u : σ) {la lo : List fl.F} (hc : Coords E.pos Bm la lo) (rs : List TurnRestriction) :
    ∀ (l : List Nat) (first : Nat) (inner : List Nat) (p z : Nat) (as : List MapArc),
    (∀ x ∈ l, at' Bm x = true) → (first :: inner).getLast? = some p → at' Bm p = true → (∀ x ∈ inner, at' Br x = false) →
    (first :: inner ++ l).getLast? = some z → at' Br z = true →
    (∀ s ∈ segmentsFrom (at' Br) first inner l, (fl.toUnsigned (E.length s)).isSome) →
    ∃ st, forEach l ⟨E.locM p, E.locR first, pathLength fl.add E.step fl.zeroD first inner, scanOf E as inner u la lo rs⟩
        (wayStep E.geo mp d (E.locW id)) = some st ∧
      st.scan = scanOf E (as ++ (segmentsFrom (at' Br) first inner l).flatMap (segArcs d id)) [] u la lo rs
  | [], first, inner, p, z, as, _, _, _, hi, hz, hr, _ => by
    refine ⟨_, rfl, ?_⟩
    have : inner = [] := by
      rcases List.eq_nil_or_concat inner with h | ⟨i, y, rfl⟩
      · exact h
      · have e : z = y := by
          have : (first :: (i ++ [y]) ++ []).getLast? = some y := by
            rw [List.append_nil, ← List.cons_append, List.getLast?_append]; simp
          simp only [List.concat_eq_append] at hz
          rw [this] at hz; cases hz; rfl
        subst e
        have := hi z (by simp)
        rw [hr] at this; cases this
    subst this
    simp [segmentsFrom]
  | y :: l, first, inner, p, z, as, hm, hp, hpm, hi, hz, hr, hu => by
    obtain ⟨cy, ey, my, _⟩ := local_eq hE.m hE.cm (hm y (by simp))
    obtain ⟨ry, er, mr⟩ := localOr_eq hE.r hE.cr y
    have hla := hc.lat y (hm y (by simp))
    have hlo := hc.lon y (hm y (by simp))
    have hpla := hc.lat p hpm
    have hplo := hc.lon p hpm
    have hlast : (first :: (inner ++ [y])).getLast? = some y := by
      rw [← List.cons_append, List.getLast?_append]; simp
    have hpl : fl.add (pathLength fl.add E.step fl.zeroD first inner) (E.step p y) =
        pathLength fl.add E.step fl.zeroD first (inner ++ [y]) := (pathLength_snoc inner _ first p y hp).symm
    have hz' : (first :: (inner ++ [y]) ++ l).getLast? = some z := by
      rw [← hz]; simp
    by_cases hy : at' Br y = true
    · rw [if_pos hy] at mr
      have hne : rk (at' Br) y ≠ invalidId := by
        have := rk_lt_count hy
        have := hE.cr
        omega
      have hz2 : (y :: [] ++ l).getLast? = some z := by
        have : (y :: l).getLast? = some ((y :: l).getLast (by simp)) := List.getLast?_eq_some_getLast _
        rw [← hz, show ([y] ++ l) = y :: l from rfl, List.getLast?_append (l := first :: inner), this]; rfl
      have hsegs : segmentsFrom (at' Br) first inner (y :: l) = ⟨first, inner, y⟩ :: segmentsFrom (at' Br) y [] l := by
        simp [segmentsFrom, hy]
      rw [hsegs] at hu ⊢
      obtain ⟨sc, ea⟩ := addArcs_ok E as id ⟨first, inner, y⟩ u la lo rs hd (hu _ (by simp))
      obtain ⟨st, e1, h1⟩ := wayLoop_ok hE hd id u hc rs l y [] y z (as ++ segArcs d id ⟨first, inner, y⟩)
        (fun x hx => hm x (by simp [hx])) rfl (hm y (by simp)) (by simp) hz2 hr (fun s hs => hu s (by simp [hs]))
      refine ⟨st, ?_, ?_⟩
      · rw [forEach]
        have : wayStep E.geo mp d (E.locW id) ⟨E.locM p, E.locR first, pathLength fl.add E.step fl.zeroD first inner, scanOf E as inner u la lo rs⟩ y =
            some ⟨E.locM y, E.locR y, fl.zeroD, scanOf E (as ++ segArcs d id ⟨first, inner, y⟩) [] u la lo rs⟩ := by
          unfold wayStep
          simp only [ey, Option.bind_eq_bind, Option.bind_some, my, er, mr]
          rw [show (scanOf E as inner u la lo rs).lat = la from rfl, show (scanOf E as inner u la lo rs).lon = lo from rfl]
          simp only [hE.lm, hla, hlo, hpla, hplo, Option.bind_some, pushScratch_ok, popScratch_ok, if_neg hne]
          change (addArcs E.geo d (scanOf E as inner u la lo rs) (E.locR first) (rk (at' Br) y) (fl.add (pathLength fl.add E.step fl.zeroD first inner) (E.step p y)) (E.locW id)).bind _ = _
          rw [hpl, ← hE.lr]
          rw [show pathLength fl.add E.step fl.zeroD first (inner ++ [y]) = E.length ⟨first, inner, y⟩ from rfl]
          simp only at ea
          rw [ea, Option.bind_some, clearScratch_ok]
        rw [this, Option.bind_some]
        exact e1
      · rw [h1, List.flatMap_cons, List.append_assoc]
    · rw [if_neg hy] at mr
      have hsegs : segmentsFrom (at' Br) first inner (y :: l) = segmentsFrom (at' Br) first (inner ++ [y]) l := by
        simp [segmentsFrom, hy]
      rw [hsegs] at hu ⊢
      obtain ⟨st, e1, h1⟩ := wayLoop_ok hE hd id u hc rs l first (inner ++ [y]) y z as
        (fun x hx => hm x (by simp [hx])) hlast (hm y (by simp)) (by
          intro x hx
          rcases List.mem_append.1 hx with h | h
          · exact hi x h
          · rw [List.mem_singleton] at h; subst h; simpa using hy) hz' hr hu
      refine ⟨st, ?_, h1⟩
      rw [forEach]
      have : wayStep E.geo mp d (E.locW id) ⟨E.locM p, E.locR first, pathLength fl.add E.step fl.zeroD first inner, scanOf E as inner u la lo rs⟩ y =
          some ⟨E.locM y, E.locR first, pathLength fl.add E.step fl.zeroD first (inner ++ [y]), scanOf E as (inner ++ [y]) u la lo rs⟩ := by
        unfold wayStep
        simp only [ey, Option.bind_eq_bind, Option.bind_some, my, er, mr]
        rw [show (scanOf E as inner u la lo rs).lat = la from rfl, show (scanOf E as inner u la lo rs).lon = lo from rfl]
        simp only [hE.lm, hla, hlo, hpla, hplo, Option.bind_some, pushScratch_ok, if_true]
        rw [← hpl]
        rfl
      rw [this, Option.bind_some]
      exact e1

/-! ### The events -/

/-- The coordinates of a node as they are stored. -/
def posOf (fl : FloatOps) (items : List OsmItem) (x : Nat) : fl.F × fl.F :=
  match position items x with
  | some (a, b) => (fl.ofCoord a, fl.ofCoord b)
  | none => (fl.zero, fl.zero)

theorem position_snoc {items : List OsmItem} {id lat lon : Int} {tags : List (Str × Str)} {x : Nat} :
    position (items ++ [.node id lat lon tags]) x = if id = x then some (lat, lon) else position items x := by
  unfold position
  rw [List.foldl_append]; rfl

theorem posOf_snoc {fl : FloatOps} {items : List OsmItem} {id lat lon : Int} {tags : List (Str × Str)} {x : Nat} :
    posOf fl (items ++ [.node id lat lon tags]) x = if id = x then (fl.ofCoord lat, fl.ofCoord lon) else posOf fl items x := by
  unfold posOf
  rw [position_snoc]
  by_cases e : id = (x : Int)
  · rw [if_pos e, if_pos e]
  · rw [if_neg e, if_neg e]

theorem rk_inj {B : List Bool} {x y : Nat} (hx : at' B x = true) (hy : at' B y = true) (h : rk (at' B) x = rk (at' B) y) : x = y := by
  rcases Nat.lt_trichotomy x y with c | c | c
  · have := rk_lt_of_set hx c; omega
  · exact c
  · have := rk_lt_of_set hy c; omega

theorem scanNode_ok {E : Env fl} {mp : Mappers} {Bm Br Bw : List Bool} (hE : EnvOk E mp Bm Br Bw) {pos pos' : Nat → fl.F × fl.F}
    {la lo : List fl.F} (hc : Coords pos Bm la lo) (u : σ) (rs : List TurnRestriction) (id : Nat) (lat lon : Int)
    (hp : ∀ x, pos' x = if id = x then (fl.ofCoord lat, fl.ofCoord lon) else pos x) :
    ∃ la' lo', scanNode mp (scanOf E [] [] u la lo rs) id lat lon = some (scanOf E [] [] u la' lo' rs) ∧ Coords pos' Bm la' lo' := by
  obtain ⟨y, ey, my⟩ := localOr_eq hE.m hE.cm id
  unfold scanNode
  by_cases hid : at' Bm id = true
  · rw [if_pos hid] at my
    have hlt := rk_lt_count hid
    have hne : rk (at' Bm) id ≠ invalidId := by have := hE.cm; omega
    refine ⟨la.set (rk (at' Bm) id) (fl.ofCoord lat), lo.set (rk (at' Bm) id) (fl.ofCoord lon), ?_, ?_⟩
    · simp only [ey, Option.bind_eq_bind, Option.bind_some, my, if_neg hne]
      rw [show (scanOf E [] [] u la lo rs).lat = la from rfl, show (scanOf E [] [] u la lo rs).lon = lo from rfl,
        wr_lt (by rw [hc.lenA]; exact hlt), Option.bind_some, wr_lt (by rw [hc.lenO]; exact hlt)]
      rfl
    · refine ⟨by rw [List.length_set]; exact hc.lenA, by rw [List.length_set]; exact hc.lenO, ?_, ?_⟩
      · intro x hx
        rw [rd_set (by rw [hc.lenA]; exact hlt), hp x]
        by_cases e : id = x
        · subst e; simp
        · have : rk (at' Bm) id ≠ rk (at' Bm) x := fun h => e (rk_inj hid hx h)
          rw [if_neg (by omega), if_neg e]
          exact hc.lat x hx
      · intro x hx
        rw [rd_set (by rw [hc.lenO]; exact hlt), hp x]
        by_cases e : id = x
        · subst e; simp
        · have : rk (at' Bm) id ≠ rk (at' Bm) x := fun h => e (rk_inj hid hx h)
          rw [if_neg (by omega), if_neg e]
          exact hc.lon x hx
  · rw [if_neg hid] at my
    refine ⟨la, lo, ?_, hc.lenA, hc.lenO, ?_, ?_⟩
    · simp only [ey, Option.bind_eq_bind, Option.bind_some, my, if_true]
    · intro x hx
      rw [hp x, if_neg (by rintro rfl; exact hid hx)]
      exact hc.lat x hx
    · intro x hx
      rw [hp x, if_neg (by rintro rfl; exact hid hx)]
      exact hc.lon x hx

theorem scanNodes_ok {E : Env fl} {mp : Mappers} {Bm Br Bw : List Bool} (hE : EnvOk E mp Bm Br Bw) (cb : WayCallback σ)
    (decoder : Option RestrictionDecoder) (u : σ) (rs : List TurnRestriction) {es : List OsmEvent} {its : List OsmItem}
    (h : List.Forall₂ Reported es its) :
    (∀ i ∈ its, i.GoodIds) → (∀ i ∈ its, (⟨true, false, false⟩ : Wanted).wants i = true) →
    ∀ {pre : List OsmItem} {la lo : List fl.F}, Coords (posOf fl pre) Bm la lo →
    ∃ la' lo', forEach es (scanOf E [] [] u la lo rs) (scanEvent E.geo mp cb decoder) = some (scanOf E [] [] u la' lo' rs) ∧
      Coords (posOf fl (pre ++ its)) Bm la' lo' := by
  induction h with
  | nil => intro _ _ pre la lo hc; exact ⟨la, lo, rfl, by simpa using hc⟩
  | @cons e i es its hr _ ih =>
    intro hg hn pre la lo hc
    have hi := hg i (by simp)
    have hi2 := hn i (by simp)
    cases i with
    | node id' lat' lon' tags =>
      cases e with
      | node id lat lon t =>
        obtain ⟨rfl, rfl, rfl, _⟩ := hr
        obtain ⟨la1, lo1, e1, hc1⟩ := scanNode_ok hE hc u rs id'.toNat lat lon (pos' := posOf fl (pre ++ [.node id' lat lon tags])) (by
          intro x
          rw [posOf_snoc]
          have : id' = (x : Int) ↔ id'.toNat = x := by have := hi.1; omega
          by_cases e : id'.toNat = x
          · rw [if_pos (this.2 e), if_pos e]
          · rw [if_neg (fun h => e (this.1 h)), if_neg e])
        obtain ⟨la2, lo2, e2, hc2⟩ := ih (fun j hj => hg j (by simp [hj])) (fun j hj => hn j (by simp [hj])) hc1
        refine ⟨la2, lo2, ?_, by simpa using hc2⟩
        simp only [forEach, scanEvent, toNat_ofInt hi, e1, Option.bind_some]
        exact e2
      | _ => exact absurd hr (by simp [Reported])
    | _ => exact absurd hi2 (by simp [Wanted.wants])

/-- A way which is used: its nodes are modelling nodes, its first and last node are routing nodes. -/
def WayFits (modelling routing : Nat → Bool) (nodes : List Int) : Prop :=
  (∀ x ∈ nodes, modelling x.toNat = true) ∧ ∃ a b, nodes.head? = some a ∧ nodes.getLast? = some b ∧ routing a.toNat = true ∧ routing b.toNat = true

/-- The callback of the user, as the specification sees it. -/
def callbackOf (cb : WayCallback σ) (u : σ) (id : Int) (l : Nat) (t : TagLookup) : Option (σ × Bool × Bool) :=
  (cb u (BitVec.ofInt 64 id) l t).map fun r => (r.1, dirForwards r.2, dirBackwards r.2)

theorem arcsOfWay_eq (r : Nat → Bool) (d : WayDirection) (id : Nat) (nodes : List Nat) :
    arcsOfWay r (dirForwards d) (dirBackwards d) id nodes = (segments r nodes).flatMap (segArcs d id) := rfl

theorem scanWay_ok {E : Env fl} {mp : Mappers} {Bm Br Bw : List Bool} (hE : EnvOk E mp Bm Br Bw) {cb : WayCallback σ}
    {la lo : List fl.F} (hc : Coords E.pos Bm la lo) (rs : List TurnRestriction) (as : List MapArc) (u : σ) (id : Word) (nodes : List Int) (tags : Tags)
    (hid : at' Bw id.toNat = true) (hf : WayFits (at' Bm) (at' Br) nodes) {r : σ × WayDirection} (hcb : cb u id (rk (at' Bw) id.toNat) tags = some r)
    (hu : ∀ a ∈ arcsOfWay (at' Br) (dirForwards r.2) (dirBackwards r.2) id.toNat (nodes.map Int.toNat), (fl.toUnsigned (E.length a.seg)).isSome) :
    scanWay E.geo mp cb (scanOf E as [] u la lo rs) id (nodes.map Int.toNat) tags =
      some (scanOf E (as ++ arcsOfWay (at' Br) (dirForwards r.2) (dirBackwards r.2) id.toNat (nodes.map Int.toNat)) [] r.1 la lo rs) := by
  obtain ⟨w, ew, mw⟩ := localOr_eq hE.w hE.cw id.toNat
  rw [if_pos hid] at mw
  have hne : rk (at' Bw) id.toNat ≠ invalidId := by have := rk_lt_count hid; have := hE.cw; omega
  unfold scanWay
  simp only [ew, Option.bind_eq_bind, Option.bind_some, mw, if_neg hne]
  rw [show (scanOf E as [] u la lo rs).user = u from rfl, hcb, Option.bind_some]
  rw [arcsOfWay_eq] at hu ⊢
  rw [show ({ scanOf E as [] u la lo rs with user := r.1 } : Scan fl σ) = scanOf E as [] r.1 la lo rs from rfl]
  by_cases hd : r.2 = .closed
  · rw [if_pos hd, hd]
    have : (segments (at' Br) (nodes.map Int.toNat)).flatMap (segArcs .closed id.toNat) = [] := by
      rw [List.flatMap_eq_nil_iff]
      intro s _; rfl
    rw [this, List.append_nil]
  · rw [if_neg hd]
    obtain ⟨hm, a, b, ha, hb, hra, hrb⟩ := hf
    cases nodes with
    | nil => cases ha
    | cons x nodes =>
      simp only [List.head?_cons, Option.some.injEq] at ha
      subst ha
      simp only [List.map_cons, List.head?_cons, Option.bind_some, List.tail_cons]
      obtain ⟨p, ep, mp1, _⟩ := local_eq hE.m hE.cm (hm x (by simp))
      obtain ⟨q, eq, mq, _⟩ := local_eq hE.r hE.cr hra
      simp only [ep, eq, Option.bind_some, mp1, mq]
      have hz : (x.toNat :: [] ++ nodes.map Int.toNat).getLast? = some b.toNat := by
        rw [show x.toNat :: [] ++ nodes.map Int.toNat = (x :: nodes).map Int.toNat from rfl, List.getLast?_map, hb]; rfl
      obtain ⟨st, e1, h1⟩ := wayLoop_ok hE hd id.toNat r.1 hc rs (nodes.map Int.toNat) x.toNat [] x.toNat b.toNat as
        (by
          intro y hy
          obtain ⟨z, hz, rfl⟩ := List.mem_map.1 hy
          exact hm z (by simp [hz])) rfl (hm x (by simp)) (by simp) hz hrb (by
          intro s hs
          have : ∃ a ∈ segArcs r.2 id.toNat s, a.seg = s := by
            cases hr : r.2 with
            | closed => exact absurd hr hd
            | _ => simp [segArcs, dirForwards, dirBackwards]
          obtain ⟨a, ha1, ha2⟩ := this
          have := hu a (List.mem_flatMap.2 ⟨s, hs, ha1⟩)
          rwa [ha2] at this)
      rw [hE.lm, hE.lr, hE.lw] at e1
      rw [show pathLength fl.add E.step fl.zeroD x.toNat [] = fl.zeroD from rfl] at e1
      rw [e1, Option.bind_some, h1]
      rfl

theorem scanWay_other {E : Env fl} {mp : Mappers} {Bm Br Bw : List Bool} (hE : EnvOk E mp Bm Br Bw) {cb : WayCallback σ}
    (s : Scan fl σ) (id : Word) (nodes : List Nat) (tags : Tags) (hid : at' Bw id.toNat = false) :
    scanWay E.geo mp cb s id nodes tags = some s := by
  obtain ⟨w, ew, mw⟩ := localOr_eq hE.w hE.cw id.toNat
  rw [hid, if_neg (by decide)] at mw
  unfold scanWay
  simp only [ew, Option.bind_eq_bind, Option.bind_some, mw, if_true]

theorem map_toNat_ofInt {nodes : List Int} (h : ∀ x ∈ nodes, 0 ≤ x ∧ x < 2 ^ 63) :
    (nodes.map (BitVec.ofInt 64)).map (·.toNat) = nodes.map Int.toNat := by
  rw [List.map_map]
  apply List.map_congr_left
  intro x hx
  exact toNat_ofInt (h x hx)

theorem scanWays_ok {E : Env fl} {mp : Mappers} {Bm Br Bw : List Bool} (hE : EnvOk E mp Bm Br Bw) {cb : WayCallback σ}
    (decoder : Option RestrictionDecoder) {la lo : List fl.F} (hc : Coords E.pos Bm la lo) (rs : List TurnRestriction)
    {es : List OsmEvent} {its : List OsmItem} (h : List.Forall₂ Reported es its) :
    (∀ i ∈ its, i.GoodIds) → (∀ i ∈ its, (⟨false, true, false⟩ : Wanted).wants i = true) →
    (∀ id nodes tags, OsmItem.way id nodes tags ∈ its → at' Bw id.toNat = true → WayFits (at' Bm) (at' Br) nodes) →
    ∀ {u u' : σ} {as new : List MapArc}, graphArcs (at' Bw) (at' Br) (rk (at' Bw)) (callbackOf cb) u its = some (u', new) →
    (∀ a ∈ new, (fl.toUnsigned (E.length a.seg)).isSome) →
    forEach es (scanOf E as [] u la lo rs) (scanEvent E.geo mp cb decoder) = some (scanOf E (as ++ new) [] u' la lo rs) := by
  induction h with
  | nil =>
    intro _ _ _ u u' as new hg _
    simp only [graphArcs, Option.some.injEq, Prod.mk.injEq] at hg
    obtain ⟨rfl, rfl⟩ := hg
    simp [forEach]
  | @cons e i es its hr _ ih =>
    intro hg hn hf u u' as new hA hu
    have hi := hg i (by simp)
    have hi2 := hn i (by simp)
    have ih := @ih (fun j hj => hg j (by simp [hj])) (fun j hj => hn j (by simp [hj])) (fun id nodes tags h => hf id nodes tags (by simp [h]))
    cases i with
    | way id' nodes' tags =>
      cases e with
      | way id nodes t =>
        obtain ⟨rfl, rfl, ht, _⟩ := hr
        have eid : (BitVec.ofInt 64 id').toNat = id'.toNat := toNat_ofInt hi.1
        simp only [forEach, scanEvent, map_toNat_ofInt hi.2, tagsOf_show ht]
        by_cases hm : at' Bw id'.toNat = true
        · simp only [graphArcs, hm, if_true] at hA
          cases hcb : cb u (BitVec.ofInt 64 id') (rk (at' Bw) id'.toNat) (lookup tags) with
          | none => simp only [callbackOf, hcb, Option.map_none] at hA; cases hA
          | some r =>
            simp only [callbackOf, hcb, Option.map_some] at hA
            cases hgr : graphArcs (at' Bw) (at' Br) (rk (at' Bw)) (callbackOf cb) r.1 its with
            | none =>
              have : graphArcs (at' Bw) (at' Br) (rk (at' Bw)) (fun u id l t => (cb u (BitVec.ofInt 64 id) l t).map fun r => (r.1, dirForwards r.2, dirBackwards r.2)) r.1 its = none := hgr
              change (match graphArcs (at' Bw) (at' Br) (rk (at' Bw)) (callbackOf cb) r.1 its with | none => none | some (u, arcs) => _) = _ at hA
              rw [hgr] at hA; cases hA
            | some q =>
              obtain ⟨u2, new2⟩ := q
              change (match graphArcs (at' Bw) (at' Br) (rk (at' Bw)) (callbackOf cb) r.1 its with | none => none | some (u, arcs) => _) = _ at hA
              rw [hgr] at hA
              simp only [Option.some.injEq, Prod.mk.injEq] at hA
              obtain ⟨rfl, rfl⟩ := hA
              have := scanWay_ok hE (cb := cb) hc rs as u (BitVec.ofInt 64 id') nodes' (lookup tags) (by rw [eid]; exact hm)
                (hf id' nodes' tags (by simp) hm) (r := r) (by rw [eid]; exact hcb) (by
                  rw [eid]
                  intro a ha; exact hu a (by simp [ha]))
              rw [this, eid, Option.bind_some, ih hgr (fun a ha => hu a (by simp [ha])), List.append_assoc]
        · simp only [graphArcs, hm] at hA
          rw [scanWay_other hE _ _ _ _ (by rw [eid]; simpa using hm), Option.bind_some]
          exact ih hA hu
      | _ => exact absurd hr (by simp [Reported])
    | _ => exact absurd hi2 (by simp [Wanted.wants])

/-- The decoder of the user, as the specification sees it. -/
def decoderOf (f : RestrictionDecoder) (id : Int) (members : List (Nat × Int × Str)) (t : TagLookup) : Option (List TurnRestriction) :=
  f (BitVec.ofInt 64 id) (members.map fun m => (m.1, BitVec.ofInt 64 m.2.1, m.2.2)) t

theorem scanRelations_ok {E : Env fl} {mp : Mappers} {cb : WayCallback σ} {f : RestrictionDecoder} {la lo : List fl.F}
    {es : List OsmEvent} {its : List OsmItem} (h : List.Forall₂ Reported es its) :
    (∀ i ∈ its, (⟨false, false, true⟩ : Wanted).wants i = true) →
    ∀ {u : σ} {as : List MapArc} {rs new : List TurnRestriction}, relationData (decoderOf f) its = some new →
    forEach es (scanOf E as [] u la lo rs) (scanEvent E.geo mp cb (some f)) = some (scanOf E as [] u la lo (rs ++ new)) := by
  induction h with
  | nil =>
    intro _ u as rs new h
    simp only [relationData, Option.some.injEq] at h
    subst h
    simp [forEach]
  | @cons e i es its hr _ ih =>
    intro hn u as rs new hA
    have hi2 := hn i (by simp)
    have ih := @ih (fun j hj => hn j (by simp [hj]))
    cases i with
    | relation id' members' tags =>
      cases e with
      | relation id members t =>
        obtain ⟨rfl, rfl, ht, _⟩ := hr
        simp only [relationData] at hA
        cases h1 : decoderOf f id' members' (lookup tags) with
        | none => rw [h1] at hA; cases hA
        | some l =>
          cases h2 : relationData (decoderOf f) its with
          | none => rw [h1, h2] at hA; cases hA
          | some l' =>
            rw [h1, h2] at hA
            cases hA
            have h1' : f (BitVec.ofInt 64 id') (members'.map fun m => (m.1, BitVec.ofInt 64 m.2.1, m.2.2)) (lookup tags) = some l := h1
            simp only [forEach, scanEvent, scanRelation, tagsOf_show ht, h1', Option.bind_eq_bind, Option.bind_some]
            rw [← List.append_assoc]
            exact ih h2
      | _ => exact absurd hr (by simp [Reported])
    | _ => exact absurd hi2 (by simp [Wanted.wants])

end RK.Osm
