import Verif.Proof.OsmDouble
import Verif.Proof.OsmGraph
/-! # The graph builder with coordinates of type `double` -/
namespace RK.Osm
open Spec BitVector Ieee

/-! ### Reported objects -/

theorem within_mono {e e' x : ℝ} {n : Int} (h : e ≤ e') (hx : Within e x n) : Within e' x n := le_trans hx h

theorem small_of {es : List OsmEvent} {its : List OsmItem} (h : List.Forall₂ Reported es its) (hg : ∀ i ∈ its, OnGlobe i) : ∀ e ∈ es, SmallCall e := by
  induction h with
  | nil => simp
  | @cons e i es its hr _ ih =>
    intro x hx
    rcases List.mem_cons.1 hx with rfl | hx
    · have := hg i (by simp)
      cases x with
      | node id lat lon t =>
        cases i with
        | node id' lat' lon' tags =>
          obtain ⟨_, rfl, rfl, _⟩ := hr
          exact ⟨this.1.trans (by norm_num), this.2⟩
        | _ => exact absurd hr (by simp [Reported])
      | _ => trivial
    · exact ih (fun i hi => hg i (by simp [hi])) x hx

theorem reported_within {N : Nat} {err : ℝ} (he : (N : ℝ) * 0.00000000000023 ≤ err) {es : List OsmEvent} {its : List OsmItem} {ds : List DoubleEvent}
    (h : List.Forall₂ Reported es its) (hs : List.Forall₂ SameCall es ds) (hn : List.Forall₂ (NearCall N) es ds) :
    List.Forall₂ (ReportedWithin err) ds its := by
  induction h generalizing ds with
  | nil => cases hs; exact .nil
  | @cons e i es its hr _ ih =>
    cases hs with
    | @cons _ d _ ds hs1 hs =>
      cases hn with
      | cons hn1 hn =>
        refine .cons ?_ (ih hs hn)
        cases e with
        | node id lat lon t =>
          cases d with
          | other _ => exact absurd hs1 (by simp [SameCall])
          | node id2 lat2 lon2 t2 =>
            cases i with
            | node id' lat' lon' tags =>
              obtain ⟨rfl, rfl, rfl, ht⟩ := hr
              obtain ⟨rfl, rfl⟩ := hs1
              exact ⟨rfl, within_mono he hn1.1, within_mono he hn1.2, ht⟩
            | _ => exact absurd hr (by simp [Reported])
        | way id nodes t =>
          cases d with
          | node _ _ _ _ => exact absurd hs1 (by simp [SameCall])
          | other e =>
            simp only [SameCall] at hs1
            subst hs1
            cases i with
            | way _ _ _ => exact hr
            | _ => exact absurd hr (by simp [Reported])
        | relation id members t =>
          cases d with
          | node _ _ _ _ => exact absurd hs1 (by simp [SameCall])
          | other e =>
            simp only [SameCall] at hs1
            subst hs1
            cases i with
            | relation _ _ _ => exact hr
            | _ => exact absurd hr (by simp [Reported])

/-- Blocks of files of the format. -/
theorem goodInput_file {inflate : List Byte → Option (List Byte)} {required optional : List Str} {file : List Byte} {items : List OsmItem}
    (h : EncodesFile inflate required optional file items) (own : Bool) : GoodInput 11184811 (decompressFile inflate own file).2.1 := by
  obtain ⟨st, ds, parts, e, g1, hrest⟩ := decompressFile_ok own h (rest := []) (by decide)
  rw [List.append_nil] at e
  rw [e]
  clear hrest
  refine goodInput_of g1 (fun d hd => ?_) (by decide)
  have : d.length < 2 ^ 25 := by
    clear e
    induction g1 with
    | nil => simp at hd
    | cons h1 _ ih =>
      rcases List.mem_cons.1 hd with rfl | hd
      · exact h1.1
      · exact ih hd
  omega

/-- The calls of the callbacks if the exact decoder makes the calls `es`. -/
theorem sim_reported {N : Nat} {err : ℝ} (he : (N : ℝ) * 0.00000000000023 ≤ err) {q : Prop} {o : Out} {d : DoubleOut} (hs : Sim N q o d) (hq : q) {es : List OsmEvent} {r : Res (TagMap (List Byte))}
    (e : o = (es, r)) {its : List OsmItem} (h : List.Forall₂ Reported es its) (hg : ∀ i ∈ its, OnGlobe i) :
    ∃ ds, d = (ds, r) ∧ List.Forall₂ (ReportedWithin err) ds its := by
  subst e
  refine ⟨d.1, Prod.ext rfl hs.result, reported_within he h hs.calls (hs.near hq (small_of h hg))⟩

/-! ### The conversion to `float` -/

theorem abs_le_of_near {v t B e : ℝ} (ht : |t| ≤ B) (hv : |v - t| ≤ e) : |v| ≤ B + e := by
  have := abs_sub_abs_le_abs_sub v t
  linarith

theorem flt_near {v t e : ℝ} {k : ℤ} (hv : |v| < 2 ^ (k + (24 : ℕ))) (hn : |v - t| ≤ e) : |flt v - t| ≤ e + 2 ^ k / 2 := by
  have h1 : |v - flt v| ≤ 2 ^ k / 2 := by
    by_cases h0 : v = 0
    · subst h0
      rw [show flt 0 = 0 from rnd_zero 24, sub_self, abs_zero]
      positivity
    · have := rnd_near 24 v
      have := ulp_le 24 h0 hv
      unfold flt
      linarith
  have := abs_sub_le (flt v) v t
  rw [abs_sub_comm (flt v) v] at this
  linarith

theorem float_position {lat lon : ℝ} {p : Int × Int} (hp : OnEarth p) (h1 : Within 0.0000026 lat p.1) (h2 : Within 0.0000026 lon p.2) :
    NearPos (flt lat, flt lon) p := by
  obtain ⟨a1, a2⟩ := hp
  have a1' : |(p.1 : ℝ)| ≤ 90000000000 := by exact_mod_cast a1
  have a2' : |(p.2 : ℝ)| ≤ 180000000000 := by exact_mod_cast a2
  have b1 : |(p.1 : ℝ) / 1000000000| ≤ 90 := by rw [abs_div, abs_of_pos (by norm_num : (0 : ℝ) < 1000000000)]; linarith
  have b2 : |(p.2 : ℝ) / 1000000000| ≤ 180 := by rw [abs_div, abs_of_pos (by norm_num : (0 : ℝ) < 1000000000)]; linarith
  unfold Within at h1 h2
  have c1 := abs_le_of_near b1 h1
  have c2 := abs_le_of_near b2 h2
  norm_num at c1 c2
  refine ⟨⟨?_, ?_⟩, ?_, ?_⟩
  · have := flt_abs_le (v := lat) (e := -17) (N := 11796480) (by norm_num) (by norm_num) (by norm_num; linarith)
    norm_num at this
    exact this
  · have := flt_abs_le (v := lon) (e := -16) (N := 11796480) (by norm_num) (by norm_num) (by norm_num; linarith)
    norm_num at this
    exact this
  · have := flt_near (k := -17) (by norm_num; linarith) h1
    norm_num at this ⊢
    linarith
  · have := flt_near (k := -16) (by norm_num; linarith) h2
    norm_num at this ⊢
    linarith

/-! ### Nodes -/

variable {fl : FloatOps} {σ : Type}

theorem scanNodeDouble_ok {E : Env fl} {mp : Mappers} {Bm Br Bw : List Bool} (hE : EnvOk E mp Bm Br Bw) (ofDouble : ℝ → fl.F) {pos pos' : Nat → fl.F × fl.F}
    {la lo : List fl.F} (hc : Coords pos Bm la lo) (u : σ) (rs : List TurnRestriction) (id : Nat) (lat lon : ℝ)
    (hp : ∀ x, pos' x = if id = x then (ofDouble lat, ofDouble lon) else pos x) :
    ∃ la' lo', scanNodeDouble ofDouble mp (scanOf E [] [] u la lo rs) id lat lon = some (scanOf E [] [] u la' lo' rs) ∧ Coords pos' Bm la' lo' := by
  obtain ⟨y, ey, my⟩ := localOr_eq hE.m hE.cm id
  unfold scanNodeDouble
  by_cases hid : at' Bm id = true
  · rw [if_pos hid] at my
    have hlt := rk_lt_count hid
    have hne : rk (at' Bm) id ≠ invalidId := by have := hE.cm; omega
    refine ⟨la.set (rk (at' Bm) id) (ofDouble lat), lo.set (rk (at' Bm) id) (ofDouble lon), ?_, ?_⟩
    · simp only [ey, Option.bind_eq_bind, Option.bind_some, my, if_neg hne]
      rw [show (scanOf E [] [] u la lo rs).lat = la from rfl, show (scanOf E [] [] u la lo rs).lon = lo from rfl,
        wr_lt (by rw [hc.lenA]; exact hlt), Option.bind_some, wr_lt (by rw [hc.lenO]; exact hlt)]
      rfl
    · refine ⟨by rw [List.length_set]; exact hc.lenA, by rw [List.length_set]; exact hc.lenO, ?_, ?_⟩
      · intro x hx
        rw [rd_set (by rw [hc.lenA]; exact hlt), hp x]
        by_cases e : id = x
        · subst e; simp
        · have : rk (at' Bm) id ≠ rk (at' Bm) x := fun h => e (rk_inj hid hx h)
          rw [if_neg (by omega), if_neg e]
          exact hc.lat x hx
      · intro x hx
        rw [rd_set (by rw [hc.lenO]; exact hlt), hp x]
        by_cases e : id = x
        · subst e; simp
        · have : rk (at' Bm) id ≠ rk (at' Bm) x := fun h => e (rk_inj hid hx h)
          rw [if_neg (by omega), if_neg e]
          exact hc.lon x hx
  · rw [if_neg hid] at my
    refine ⟨la, lo, ?_, hc.lenA, hc.lenO, ?_, ?_⟩
    · simp only [ey, Option.bind_eq_bind, Option.bind_some, my, if_true]
    · intro x hx
      rw [hp x, if_neg (by rintro rfl; exact hid hx)]
      exact hc.lat x hx
    · intro x hx
      rw [hp x, if_neg (by rintro rfl; exact hid hx)]
      exact hc.lon x hx

/-- The coordinates of the nodes are those of the file, with an error; they are zero for nodes which are not in the file. -/
structure PosWithin (err : ℝ) (ofDouble : ℝ → fl.F) (items : List OsmItem) (pos : Nat → fl.F × fl.F) : Prop where
  some : ∀ x p, position items x = some p → ∃ lat lon, pos x = (ofDouble lat, ofDouble lon) ∧ Within err lat p.1 ∧ Within err lon p.2
  none : ∀ x, position items x = none → pos x = (fl.zero, fl.zero)

theorem scanNodesDouble_ok {E : Env fl} {mp : Mappers} {Bm Br Bw : List Bool} (hE : EnvOk E mp Bm Br Bw) (ofDouble : ℝ → fl.F) {err : ℝ} (cb : WayCallback σ)
    (decoder : Option RestrictionDecoder) (u : σ) (rs : List TurnRestriction) {es : List DoubleEvent} {its : List OsmItem}
    (h : List.Forall₂ (ReportedWithin err) es its) :
    (∀ i ∈ its, i.GoodIds) → (∀ i ∈ its, isNode i = true) →
    ∀ {pre : List OsmItem} {pos : Nat → fl.F × fl.F} {la lo : List fl.F}, PosWithin err ofDouble pre pos → Coords pos Bm la lo →
    ∃ pos' la' lo', forEach es (scanOf E [] [] u la lo rs) (scanEventDouble ofDouble E.geo mp cb decoder) = some (scanOf E [] [] u la' lo' rs) ∧
      PosWithin err ofDouble (pre ++ its) pos' ∧ Coords pos' Bm la' lo' := by
  induction h with
  | nil => intro _ _ pre pos la lo hp hc; exact ⟨pos, la, lo, rfl, by simpa using hp, hc⟩
  | @cons e i es its hr _ ih =>
    intro hg hn pre pos la lo hp hc
    have hi := hg i (by simp)
    have hi2 := hn i (by simp)
    cases i with
    | node id' lat' lon' tags =>
      cases e with
      | node id lat lon t =>
        obtain ⟨rfl, h1, h2, _⟩ := hr
        obtain ⟨la1, lo1, e1, hc1⟩ := scanNodeDouble_ok hE ofDouble hc u rs id'.toNat lat lon
          (pos' := fun x => if id'.toNat = x then (ofDouble lat, ofDouble lon) else pos x) (fun x => rfl)
        have hid : ∀ x : Nat, id' = (x : Int) ↔ id'.toNat = x := fun x => by have := hi.1; omega
        have hp1 : PosWithin err ofDouble (pre ++ [.node id' lat' lon' tags]) (fun x => if id'.toNat = x then (ofDouble lat, ofDouble lon) else pos x) := by
          constructor
          · intro x p hx
            rw [position_snoc] at hx
            by_cases e : id'.toNat = x
            · rw [if_pos ((hid x).2 e)] at hx
              cases hx
              exact ⟨lat, lon, if_pos e, h1, h2⟩
            · rw [if_neg (fun h => e ((hid x).1 h))] at hx
              simp only [if_neg e]
              exact hp.some x p hx
          · intro x hx
            rw [position_snoc] at hx
            by_cases e : id'.toNat = x
            · rw [if_pos ((hid x).2 e)] at hx
              cases hx
            · rw [if_neg (fun h => e ((hid x).1 h))] at hx
              simp only [if_neg e]
              exact hp.none x hx
        obtain ⟨pos2, la2, lo2, e2, hp2, hc2⟩ := ih (fun j hj => hg j (by simp [hj])) (fun j hj => hn j (by simp [hj])) hp1 hc1
        refine ⟨pos2, la2, lo2, ?_, by simpa using hp2, hc2⟩
        simp only [forEach, scanEventDouble, toNat_ofInt hi, e1, Option.bind_some]
        exact e2
      | _ => exact absurd hr (by simp [ReportedWithin])
    | _ => exact absurd hi2 (by simp [isNode, Wanted.wants])

theorem forEach_other (ofDouble : ℝ → fl.F) (geo : Geometry) (mp : Mappers) (cb : WayCallback σ) (decoder : Option RestrictionDecoder) :
    ∀ (es : List OsmEvent) (s : Scan fl σ),
      forEach (es.map .other) s (scanEventDouble ofDouble geo mp cb decoder) = forEach es s (scanEvent geo mp cb decoder)
  | [], _ => rfl
  | e :: es, s => by
    simp only [List.map_cons, forEach]
    change (scanEvent geo mp cb decoder s e).bind _ = _
    congr 1
    funext s'
    exact forEach_other ofDouble geo mp cb decoder es s'

/-- Calls for ways and relations. -/
theorem others_of {err : ℝ} {ds : List DoubleEvent} {its : List OsmItem} (h : List.Forall₂ (ReportedWithin err) ds its) (hn : ∀ i ∈ its, isNode i = false) :
    ∃ es, ds = es.map .other ∧ List.Forall₂ Reported es its := by
  induction h with
  | nil => exact ⟨[], rfl, .nil⟩
  | @cons d i ds its hr _ ih =>
    obtain ⟨es, rfl, he⟩ := ih fun i hi => hn i (by simp [hi])
    have hi := hn i (by simp)
    cases d with
    | node _ _ _ _ =>
      cases i with
      | node _ _ _ _ => cases hi
      | _ => exact absurd hr (by simp [ReportedWithin])
    | other e =>
      cases i with
      | node _ _ _ _ => cases hi
      | way _ _ _ => exact ⟨e :: es, rfl, .cons hr he⟩
      | relation _ _ _ => exact ⟨e :: es, rfl, .cons hr he⟩

/-- The calls for the graph builder. -/
theorem readDouble_ok (contract : Bool) {inflate : List Byte → Option (List Byte)} {required optional : List Str} {file : List Byte} {items : List OsmItem}
    (h : EncodesFile inflate required optional file items) (hid : ∀ i ∈ items, ¬ i.Reserved) (hgl : ∀ i ∈ items, OnGlobe i) (own b assumeOrdered : Bool)
    (hord : assumeOrdered = true → items.Pairwise fun i j => kind i ≤ kind j) (k : Nat → Nat)
    {N : Nat} {err : ℝ} (he : (N : ℝ) * 0.00000000000023 ≤ err) (hin : GoodInput N (decompressFile inflate own file).2.1) :
    ∃ ds es2 es3 m', orderedReadDouble contract inflate own ⟨true, true, b⟩ assumeOrdered k file = (ds ++ (es2 ++ es3).map .other, .ok m') ∧
      List.Forall₂ (ReportedWithin err) ds (items.filter isNode) ∧ List.Forall₂ Reported es2 (items.filter isWay) ∧
      List.Forall₂ Reported es3 (if b then items.filter isRelation else []) := by
  obtain ⟨es1, es2, es3, m', e, h1, h2, h3⟩ := read_ok h hid own b assumeOrdered hord k
  have fmem : ∀ {p : OsmItem → Bool} {i : OsmItem}, i ∈ items.filter p → i ∈ items ∧ p i = true := fun hi => List.mem_filter.1 hi
  have hrel : ∀ i ∈ (if b then items.filter isRelation else []), i ∈ items ∧ isRelation i = true := by
    intro i hi
    cases b
    · simp at hi
    · exact fmem hi
  have hall : List.Forall₂ Reported (es1 ++ (es2 ++ es3)) (items.filter isNode ++ (items.filter isWay ++ if b then items.filter isRelation else [])) :=
    List.rel_append h1 (List.rel_append h2 h3)
  rw [List.append_assoc] at e
  obtain ⟨ds, e', hd⟩ := sim_reported he (orderedRead_sim contract inflate own ⟨true, true, b⟩ assumeOrdered k file) hin e hall (by
    intro i hi
    rcases List.mem_append.1 hi with hi | hi
    · exact hgl i (fmem hi).1
    · rcases List.mem_append.1 hi with hi | hi
      · exact hgl i (fmem hi).1
      · exact hgl i (hrel i hi).1)
  have d1 := List.forall₂_take_append _ _ _ hd
  obtain ⟨es, e2, d2⟩ := others_of (List.forall₂_drop_append _ _ _ hd) (by
    intro i hi
    rcases List.mem_append.1 hi with hi | hi
    · have := (fmem hi).2
      cases i <;> simp_all [isNode, isWay, Wanted.wants]
    · have := (hrel i hi).2
      cases i <;> simp_all [isNode, isRelation, Wanted.wants])
  refine ⟨_, _, _, m', ?_, d1, List.forall₂_take_append _ _ _ d2, List.forall₂_drop_append _ _ _ d2⟩
  rw [List.take_append_drop, ← e2, List.take_append_drop]
  exact e'

/-- The scan as a whole. -/
theorem scanDouble_ok (contract : Bool) {inflate : List Byte → Option (List Byte)} {required optional : List Str} {file : List Byte} {items : List OsmItem}
    (h : EncodesFile inflate required optional file items) (hid : ∀ i ∈ items, ¬ i.Reserved) (hgl : ∀ i ∈ items, OnGlobe i) (hg : ∀ i ∈ items, i.GoodIds)
    (own assumeOrdered : Bool) (hord : assumeOrdered = true → items.Pairwise fun i j => kind i ≤ kind j) (k : Nat → Nat)
    {E : Env fl} {mp : Mappers} {Bm Br Bw : List Bool} (hE : EnvOk E mp Bm Br Bw) (ofDouble : ℝ → fl.F)
    (cb : WayCallback σ) (decoder : Option RestrictionDecoder) (u : σ)
    {N : Nat} {err : ℝ} (he : (N : ℝ) * 0.00000000000023 ≤ err) (hin : GoodInput N (decompressFile inflate own file).2.1) :
    ∃ pos la lo es2 es3 m', PosWithin err ofDouble items pos ∧ Coords pos Bm la lo ∧
      List.Forall₂ Reported es2 (items.filter isWay) ∧ List.Forall₂ Reported es3 (if decoder.isSome then items.filter isRelation else []) ∧
      (orderedReadDouble contract inflate own ⟨true, true, decoder.isSome⟩ assumeOrdered k file).2 = .ok m' ∧
      forEach (orderedReadDouble contract inflate own ⟨true, true, decoder.isSome⟩ assumeOrdered k file).1 (Scan.start mp u)
        (scanEventDouble ofDouble E.geo mp cb decoder) = forEach (es2 ++ es3) (scanOf E [] [] u la lo []) (scanEvent E.geo mp cb decoder) := by
  obtain ⟨ds, es2, es3, m', e, h1, h2, h3⟩ := readDouble_ok contract h hid hgl own decoder.isSome assumeOrdered hord k he hin
  have fmem : ∀ {p : OsmItem → Bool} {i : OsmItem}, i ∈ items.filter p → i ∈ items ∧ p i = true := fun hi => List.mem_filter.1 hi
  obtain ⟨pos, la, lo, e1, hp, hc⟩ := scanNodesDouble_ok hE ofDouble cb decoder u [] h1 (fun i hi => hg i (fmem hi).1) (fun i hi => (fmem hi).2)
    (pre := []) (pos := posOf fl []) ⟨fun x p hx => by simp [position] at hx, fun x _ => rfl⟩ (coords_start (fl := fl) (Bm := Bm))
  rw [List.nil_append] at hp
  have hpos : ∀ x, position (items.filter isNode) x = position items x := position_filter items
  refine ⟨pos, la, lo, es2, es3, m', ⟨fun x p hx => hp.some x p (by rw [hpos]; exact hx), fun x hx => hp.none x (by rw [hpos]; exact hx)⟩, hc, h2, h3, by rw [e], ?_⟩
  rw [e, scan_start hE]
  simp only
  rw [forEach_append, e1, Option.bind_some, forEach_other]

end RK.Osm
