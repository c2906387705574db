import Verif.Proof.OsmExtract
import Verif.Props.OsmSimple
/-! # C73: the extraction tool for OpenStreetMap files -/
namespace RK.Props
open RK RK.Osm _root_.Spec RK.Spec BitVector

variable {fl : FloatOps}

/-- What both theorems of this file need: the graph is loaded, with the speeds and names of the ways. -/
theorem extract_loads {inflate : List Byte → Option (List Byte)} {required optional : List Str} {file : List Byte} {items : List OsmItem}
    (h : EncodesFile inflate required optional file items) (hid : ∀ i ∈ items, ¬ i.Reserved) (hg : ∀ i ∈ items, i.GoodIds) (hw : UniqueWays items)
    (own own' : Bool) (k : Nat) (k' : Nat → Nat) (stdSort : SortFn) (junk : Nat → Word)
    (hn : ((usedWays (fun _ => usedByCars) items).flatMap Prod.snd).length < invalidId)
    (hc : (usedWays (fun _ => usedByCars) items).length < invalidId)
    (hu : ∀ a ∈ carArcs false items, (fl.toUnsigned (segmentLength fl items a.seg)).isSome) :
    ∃ m n r arcs speeds names, loadMapping inflate own k none (fun _ t => usedByCars t) false file = .ok m ∧
      m.ways.populationCount = some n ∧ MappingFits m items ∧
      loadGraph fl false inflate own' k' stdSort junk m extractCallback (List.replicate (n % u32) 0, List.replicate (n % u32) [])
        none false .none file = .ok (r, (speeds, names)) ∧
      MappingIs false [] (usedWays (fun _ => usedByCars) items) m ∧
      arcs.Perm (carArcs false items) ∧ SortedArcsOf m (carArcs false items) arcs ∧ Shows items m .none arcs r ∧
      speeds.length = total m.ways ∧ names.length = total m.ways ∧
      (∀ id nodes tags, OsmItem.way id nodes tags ∈ items → On m.ways id.toNat = true →
        (∃ v, waySpeed (lookup tags) = some v ∧ 0 < v ∧ speeds[onesBelow m.ways id.toNat]? = some v) ∧
        names[onesBelow m.ways id.toNat]? = some (roadName tags)) ∧
      ∀ a ∈ arcs, ∃ id nodes tags, OsmItem.way id nodes tags ∈ items ∧ On m.ways id.toNat = true ∧ a.way = id.toNat := by
  obtain ⟨m, em, hf, hM⟩ := mapping_loads h hid hg hw own k usedByCars false hn hc
  obtain ⟨n, en, hn'⟩ := marks_count hf
  have hval : ∀ t, ∃ v, waySpeed t = some v ∧ 0 < v := fun t => by
    obtain ⟨v, e, hv, _⟩ := C46_speed_positive t
    exact ⟨v, e, hv⟩
  choose speed hsp hpos using hval
  have hmk := marks_ways hg hw hM
  obtain ⟨⟨speeds, names⟩, eA, ⟨hlen1, hlen2⟩, hvals⟩ := graphArcs_store (marked := On m.ways) (routing := On m.routing) (localId := onesBelow m.ways)
    (cb := extractCallback) (use := usedByCars) (val := fun t => (speed t, wayName t)) (dir := carDirection) (n := total m.ways)
    (fun u => u.1.length = total m.ways ∧ u.2.length = total m.ways)
    (fun u j => (u.1[j]?).bind fun v => (u.2[j]?).map fun s => (v, s))
    (by
      rintro ⟨u1, u2⟩ id w t ⟨g1, g2⟩ hw'
      simp only at g1 g2
      refine ⟨(u1.set w (speed t), u2.set w (wayName t)), ?_, ⟨by simp [g1], by simp [g2]⟩, ?_⟩
      · simp only [extractCallback, hsp, Option.bind_eq_bind, Option.bind_some, wr_lt (v := u1) (i := w) (x := speed t) (by omega), wr_lt (v := u2) (i := w) (x := wayName t) (by omega)]
      · intro j
        simp only
        by_cases hj : j = w
        · subst hj
          rw [if_pos rfl, List.getElem?_set_self (by omega), List.getElem?_set_self (by omega)]
          rfl
        · rw [if_neg hj, List.getElem?_set_ne (Ne.symm hj), List.getElem?_set_ne (Ne.symm hj)])
    hw hg hmk (marks_inj hf.valid) (marks_lt hf.valid) items [] rfl (u := (List.replicate (n % u32) 0, List.replicate (n % u32) [])) ⟨by simp [hn'], by simp [hn']⟩ (by simp)
  have eA : graphArcs (On m.ways) (On m.routing) (onesBelow m.ways) (callbackOf extractCallback) (List.replicate (n % u32) 0, List.replicate (n % u32) []) items =
    some ((speeds, names), carArcs false items) := by
    rw [eA, marks_routing hM]; rfl
  obtain ⟨g, arcs, eg, h1, h2, h3, _⟩ := C60_routing_graph (fl := fl) h hid hg hf (debug := false) (by simp) own' false (by simp) k' stdSort junk
    (geo := .none) eA hu (by rw [stored_none]; decide)
  refine ⟨m, n, g, arcs, speeds, names, em, en, hf, eg, hM, h1, h2, h3, hlen1, hlen2, ?_, ?_⟩
  · intro id nodes tags hi hon
    have := hvals id nodes tags hi hon
    simp only at this
    cases e1 : speeds[onesBelow m.ways id.toNat]? with
    | none => rw [e1] at this; cases this
    | some v =>
      cases e2 : names[onesBelow m.ways id.toNat]? with
      | none => rw [e1, e2] at this; cases this
      | some s =>
        rw [e1, e2] at this
        simp only [Option.map_some, Option.bind_some, Option.some.injEq, Prod.mk.injEq] at this
        obtain ⟨rfl, rfl⟩ := this
        exact ⟨⟨_, hsp _, hpos _, rfl⟩, by rw [wayName_eq]⟩
  · intro a ha
    obtain ⟨id, nodes, tags, a1, a2, a3, _⟩ := graphArcs_mem eA a (h1.mem_iff.1 ha)
    exact ⟨id, nodes, tags, a1, a2, a3⟩

/-- C73: `osm_extract` saves the graph of the arcs that cars may use (C60), for each arc its length, its way and the travel time at the
speed of this way, for each way its speed and its name, and the ids of the nodes and ways. It prints an arc with maximum travel
time and the id of its way. Without debug assertions; the lengths of the arcs can be converted to integers.
Partial: at least one arc, see `C73_no_arcs_undefined`. -/
theorem C73_extract_partial {inflate : List Byte → Option (List Byte)} {required optional : List Str} {file : List Byte} {items : List OsmItem}
    (h : EncodesFile inflate required optional file items) (hid : ∀ i ∈ items, ¬ i.Reserved) (hg : ∀ i ∈ items, i.GoodIds) (hw : UniqueWays items)
    (own own' : Bool) (k : Nat) (k' : Nat → Nat) (stdSort : SortFn) (junk : Nat → Word)
    (hn : ((usedWays (fun _ => usedByCars) items).flatMap Prod.snd).length < invalidId)
    (hc : (usedWays (fun _ => usedByCars) items).length < invalidId)
    (hu : ∀ a ∈ carArcs false items, (fl.toUnsigned (segmentLength fl items a.seg)).isSome) (hne : carArcs false items ≠ []) :
    ∃ (f : ExtractFiles fl) (report : ExtractReport) (m : IdMapping) (arcs : List MapArc) (r : RoutingGraph fl),
      toolExtract fl false inflate own own' k k' stdSort junk file = .ok (f, report) ∧
      MappingIs false [] (usedWays (fun _ => usedByCars) items) m ∧ f.osmNode = m.routing ∧ f.osmWay = m.ways ∧
      arcs.Perm (carArcs false items) ∧ SortedArcsOf m (carArcs false items) arcs ∧ Shows items m .none arcs r ∧
      f.firstOut = r.firstOut ∧ f.head = r.head ∧ f.geoDistance = r.geoDistance ∧ f.way = r.way ∧ f.latitude = r.latitude ∧ f.longitude = r.longitude ∧
      f.waySpeed.length = total m.ways ∧ f.wayName.length = total m.ways ∧
      (∀ id nodes tags, OsmItem.way id nodes tags ∈ items → On m.ways id.toNat = true →
        f.waySpeed[onesBelow m.ways id.toNat]? = waySpeed (lookup tags) ∧ f.wayName[onesBelow m.ways id.toNat]? = some (roadName tags)) ∧
      f.travelTime.length = arcs.length ∧
      (∀ (i : Nat) a tags v d, arcs[i]? = some a → WayOf items a tags → waySpeed (lookup tags) = some v → f.geoDistance[i]? = some d → d ≤ 238609 →
        f.travelTime[i]? = some (d * 3600 / v)) ∧
      (∃ a, arcs[report.arc]? = some a ∧ report.osmWay = a.way) ∧ f.travelTime[report.arc]? = some report.travelTime ∧
      (∀ t ∈ f.travelTime, t ≤ report.travelTime) ∧ f.geoDistance[report.arc]? = some report.geoDistance ∧
      ∃ w, f.way[report.arc]? = some w ∧ f.waySpeed[w]? = some report.speed := by
  obtain ⟨m, n, g, arcs, speeds, names, em, en, hf, eg, hM, h1, h2, h3, hlen1, hlen2, hvals, hmem⟩ := extract_loads (fl := fl) h hid hg hw own own' k k' stdSort junk hn hc hu
  have hwl : g.way.length = g.geoDistance.length := by
    rw [h3.way, List.length_map, h3.distance.length_eq]
  obtain ⟨tt, et, hl3, ht⟩ := C46_travel_times g.geoDistance g.way speeds hwl (by
      intro w hw'
      rw [h3.way] at hw'
      obtain ⟨a, ha, rfl⟩ := List.mem_map.1 hw'
      obtain ⟨id, nodes, tags, a1, a2, a3⟩ := hmem a ha
      rw [hlen1, a3]; exact marks_lt hf.valid _ a2) (by
      intro w hw' v hv
      rw [h3.way] at hw'
      obtain ⟨a, ha, rfl⟩ := List.mem_map.1 hw'
      obtain ⟨id, nodes, tags, a1, a2, a3⟩ := hmem a ha
      obtain ⟨⟨v', _, hv', e'⟩, _⟩ := hvals id nodes tags a1 a2
      rw [← a3] at e'
      have hv : speeds[onesBelow m.ways a.way]? = some v := hv
      rw [e'] at hv
      cases hv
      exact hv')
  have htl : tt.length = arcs.length := by rw [hl3, h3.distance.length_eq]
  have hhl : g.head.length = tt.length := by rw [h3.head, List.length_map, htl]
  have hane : arcs ≠ [] := fun e => hne (List.nil_perm.1 (e ▸ h1))
  obtain ⟨s, t, es, hst, hmax⟩ := slowestArc_ok (tt := tt) (by
    intro e; rw [e] at htl; exact hane (List.length_eq_zero_iff.1 htl.symm))
  have hsl : s < arcs.length := by rw [← htl]; exact (List.getElem?_eq_some_iff.1 hst).1
  have has := List.getElem?_eq_getElem hsl
  obtain ⟨id, nodes, tags, a1, a2, a3⟩ := hmem _ (List.getElem_mem hsl)
  obtain ⟨⟨v, hv, _, e'⟩, _⟩ := hvals id nodes tags a1 a2
  have hds : s < g.geoDistance.length := by rw [← hl3]; exact (List.getElem?_eq_some_iff.1 hst).1
  have hdg := List.getElem?_eq_getElem hds
  have hway : g.way[s]? = some (onesBelow m.ways id.toNat) := by
    rw [h3.way, List.getElem?_map, has, Option.map_some, a3]
  obtain ⟨Bw, rw'⟩ := hf.valid.2.2
  obtain ⟨mp, emp, hmp, _⟩ := IDMapper.new_spec rw'
  have hrk : rk (at' Bw) id.toNat = onesBelow m.ways id.toNat := by rw [onesF rw']
  have hat : at' Bw id.toNat = true := by rw [← onF rw']; exact a2
  obtain ⟨x, ex, hx1, hx2⟩ := hmp.toGlobal (l := onesBelow m.ways id.toNat) (by rw [← total_eq rw']; exact marks_lt hf.valid _ a2)
  have hxid : x = id.toNat := rk_inj hx1 hat (by rw [hx2, hrk])
  refine ⟨⟨g.firstOut, g.head, g.geoDistance, tt, g.way, names, speeds, g.latitude, g.longitude, m.routing, m.ways⟩, ⟨s, t, g.geoDistance[s], v, x⟩, m, arcs, g,
    ?_, hM, rfl, rfl, h1, h2, h3, rfl, rfl, rfl, rfl, rfl, rfl, hlen1, hlen2, ?_, htl, ?_, ⟨_, has, ?_⟩, hst, hmax, hdg, ⟨_, hway, e'⟩⟩
  · unfold toolExtract
    rw [em]
    simp only [Res.ok_bind, en, Res.ofOption_some]
    rw [eg]
    simp only [Res.ok_bind, et, Res.ofOption_some]
    have : slowestReport m.ways tt g.geoDistance g.way speeds g.head.length = some ⟨s, t, g.geoDistance[s], v, x⟩ := by
      unfold slowestReport
      rw [hhl, es]
      simp only [Option.bind_eq_bind, Option.bind_some, emp, rd, hst, hdg, hway, e', ex]
    rw [this]
    rfl
  · intro id nodes tags hi hon
    obtain ⟨⟨v, e1, _, e2⟩, e3⟩ := hvals id nodes tags hi hon
    exact ⟨by rw [e1]; exact e2, e3⟩
  · rintro i a tags v d hi ⟨id, nodes, hm, e⟩ hv hd hd'
    have ha : a ∈ arcs := List.mem_of_getElem? hi
    obtain ⟨id', nodes', tags', a1, a2, a3⟩ := hmem a ha
    have hg1 := (hg _ hm).1
    have hg2 := (hg _ a1).1
    have : id' = id := by omega
    subst this
    obtain ⟨rfl, rfl⟩ := hw _ _ _ _ _ hm a1
    refine ht i d (onesBelow m.ways a.way) v hd ?_ ?_ hd'
    · change g.way[i]? = _
      rw [h3.way, List.getElem?_map, hi]; rfl
    · obtain ⟨⟨v', e1, _, e2⟩, _⟩ := hvals _ _ _ a1 a2
      rw [a3]
      change speeds[_]? = _
      rw [e2, ← e1, hv]
  · change x = _
    rw [hxid, a3]

/-- Finding: if there is no arc (for example because the file contains no road), the report reads behind the end of a vector before
anything is saved. -/
theorem C73_no_arcs_undefined {inflate : List Byte → Option (List Byte)} {required optional : List Str} {file : List Byte} {items : List OsmItem}
    (h : EncodesFile inflate required optional file items) (hid : ∀ i ∈ items, ¬ i.Reserved) (hg : ∀ i ∈ items, i.GoodIds) (hw : UniqueWays items)
    (own own' : Bool) (k : Nat) (k' : Nat → Nat) (stdSort : SortFn) (junk : Nat → Word)
    (hn : ((usedWays (fun _ => usedByCars) items).flatMap Prod.snd).length < invalidId)
    (hc : (usedWays (fun _ => usedByCars) items).length < invalidId) (hempty : carArcs false items = []) :
    toolExtract fl false inflate own own' k k' stdSort junk file = .ub := by
  obtain ⟨m, n, g, arcs, speeds, names, em, en, hf, eg, hM, h1, h2, h3, hlen1, hlen2, hvals, hmem⟩ := extract_loads (fl := fl) h hid hg hw own own' k k' stdSort junk hn hc
    (by rw [hempty]; simp)
  rw [hempty] at h1
  have ha := List.perm_nil.1 h1
  subst ha
  have hd : g.geoDistance = [] := by have := h3.distance.length_eq; exact List.length_eq_zero_iff.1 this.symm
  have hw' : g.way = [] := h3.way
  have hh : g.head = [] := h3.head
  unfold toolExtract
  rw [em]
  simp only [Res.ok_bind, en, Res.ofOption_some]
  rw [eg]
  simp only [Res.ok_bind, hd, hw', hh]
  have e : travelTimes [] [] speeds = some [] := rfl
  have e2 : slowestReport m.ways [] [] [] speeds 0 = none := by
    unfold slowestReport
    have : slowestArc [] 0 = some invalidId := rfl
    rw [this]
    simp only [Option.bind_eq_bind, Option.bind_some]
    cases IDMapper.new m.ways <;> rfl
  rw [e]
  simp only [Res.ofOption_some, Res.ok_bind, List.length_nil, e2, Res.ofOption_none, Res.ub_bind]

/-! ### Examples -/

/-- The hypotheses are satisfiable: the example file of C62 has one way, 7, with two arcs and a speed of 25 km/h. -/
example : ∃ (f : ExtractFiles intOps) (report : ExtractReport),
    toolExtract intOps false (fun _ => none) false true 0 (fun _ => 0) (fun _ less l => l.mergeSort fun a b => !less b a) (fun _ => 0) roadFile = .ok (f, report) ∧
      report.osmWay = 7 ∧ f.travelTime.length = 2 := by
  obtain ⟨f, report, m, arcs, r, e, _, _, _, hp, _, _, _, _, _, _, _, _, _, _, _, hl, _, ⟨a, ha, hid⟩, _⟩ := C73_extract_partial (fl := intOps) roadFile_ok roadReserved roadGood
    roadUnique false true 0 (fun _ => 0) (fun _ less l => l.mergeSort fun a b => !less b a) (fun _ => 0) (by decide +kernel) (by decide +kernel) (by intro a _; rfl)
    (by rw [roadArcs.1]; simp)
  rw [roadArcs.1] at hp
  have hm := hp.mem_iff.1 (List.mem_of_getElem? ha)
  refine ⟨f, report, e, ?_, by rw [hl, hp.length_eq]; rfl⟩
  rw [hid]
  simp only [List.mem_cons, List.not_mem_nil, or_false] at hm
  rcases hm with hm | hm <;> rw [hm]

/-- A file whose only way is no road. -/
example : toolExtract intOps false (fun _ => none) false true 0 (fun _ => 0) (fun _ _ l => l) (fun _ => 0) exFile = .ub := by
  refine C73_no_arcs_undefined (fl := intOps) exFile_ok ?_ ?_ ?_ false true 0 (fun _ => 0) _ (fun _ => 0) (by decide +kernel) (by decide +kernel) (by decide +kernel)
  · intro i hi
    simp only [exItems, List.mem_cons, List.not_mem_nil, or_false] at hi
    rcases hi with rfl | rfl | rfl | rfl <;> simp [OsmItem.Reserved]
  · intro i hi
    simp only [exItems, List.mem_cons, List.not_mem_nil, or_false] at hi
    rcases hi with rfl | rfl | rfl | rfl <;> simp [OsmItem.GoodIds]
  · intro id n n' t t' h1 h2
    simp [exItems] at h1 h2
    exact ⟨by rw [h1.2.1, h2.2.1], by rw [h1.2.2, h2.2.2]⟩

/-- A road with name and number. -/
example : roadName [(text "highway", text "primary"), (text "ref", text "B10"), (text "name", text "Main Street")] = text "Main Street;B10" ∧
    roadName [(text "ref", text "B10")] = text "B10" ∧ roadName [] = [] := by decide +kernel

/-- Of two arcs with the same travel time the last one is reported. -/
example : slowestArc [3, 7, 5, 7, 1] 5 = some 3 := by decide

end RK.Props
