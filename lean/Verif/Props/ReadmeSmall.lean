import Verif.Props.ReadmeFloat
/-! # C89: the example program for small networks, without conditions on the hierarchy -/
namespace RK.Props
open RK RK.Osm _root_.Spec RK.Spec Ieee

/-- **C89**, the example program of the documentation for small networks (partial): everything with IEEE arithmetic, and no condition on the hierarchy. The
network has at most 250 routing nodes, all stretches are some metres longer than the error of their length, speeds are at most 25000 km/h, and the times of
the stretches are at most `W` milliseconds, such that the times of that many stretches fit. (`earth_length` bounds the length that is computed.) -/
theorem C89_small_networks_partial {lib : MathLib} (hlib : lib.Good) {single : SingleLib} (hsingle : single.Good) (contract contract' : Bool) (f : Fused)
    {coord : Int → ℝ} (hc : GoodCoord coord) (fits : TurnDirection → ℝ × ℝ → ℝ × ℝ → ℝ × ℝ → Bool)
    {inflate : List Byte → Option (List Byte)} {file : List Byte} {items : List OsmItem} {M : ℝ} (h0 : 0 ≤ M) (hM : M ≤ 10000000) (h : EarthFile inflate file items M)
    {W : Nat} (hlong : ∀ a ∈ carArcs false items, 8 + 6 * ((a.seg.inner.length : ℝ) + 1) ≤ exactLength items a.seg)
    (hspeed : ∀ a ∈ carArcs false items, ∀ tags v, WayOf items a tags → waySpeed (lookup tags) = some v →
      v ≤ 25000 ∧ (exactLength items a.seg + 1 + 6 * ((a.seg.inner.length : ℝ) + 1)) * 3600 ≤ W * v)
    (hsmall : ∀ ids, RoutingNodes false items ids → ids.length ≤ 250 ∧ ids.length * W ≤ 357913941)
    (own own' : Bool) (k : Nat) (k' : Nat → Nat) {stdSort : SortFn} (hs : StdSort stdSort) (junk : Nat → Word) {radius : ℝ} (hr : 0 ≤ radius)
    {nth : Nat → Nat → List (PointData (ℝ × ℝ) (Option ℝ)) → Nat → List (PointData (ℝ × ℝ) (Option ℝ))}
    (hn : NthElementOkF (geoOps lib contract' (buildDist single f)).lt nth)
    (asserts : Bool) (hne : asserts = true → carArcs false items ≠ []) (junkF junkB : Nat → Word) :
    ∃ ids, RoutingNodes false items ids ∧
      ∀ (input : List ((ℝ × ℝ) × (ℝ × ℝ))), (∀ p ∈ input, FarFrom items ids M p.1 ∧ FarFrom items ids M p.2) →
        ∃ answers, readmeMainF (osmOps lib contract coord fits) (geoOps lib contract' (buildDist single f)) false asserts inflate own own' k k' stdSort junk junkF junkB
            (some radius) nth file input = .ok answers ∧
          List.Forall₂ (NearAnswer (osmOps lib contract coord fits) items ids M radius) input answers := by
  obtain ⟨g, ids, tail, e, hN⟩ := car_network (earth_carFile hlib contract hc fits h) own own' k k' hs junk
  obtain ⟨g', ids', tail', e', ht', hc', hR', hprog⟩ := C89_example_program_partial hlib hsingle contract contract' f hc fits h0 hM h own own' k k' hs junk hr hn
  rw [e] at e'
  cases e'
  rw [hN.tails] at ht'
  cases ht'
  have hsame : ids' = ids :=
    List.Perm.eq_of_pairwise (le := (· < ·)) (fun a b _ _ x y => by omega) hR'.1 hN.routing.1
      ((List.perm_ext_iff_of_nodup (hR'.1.imp Nat.ne_of_lt) (hN.routing.1.imp Nat.ne_of_lt)).2 (fun x => by rw [hR'.2, hN.routing.2]))
  subst hsame
  have htime : ∀ a ∈ carArcs false items, ∀ t, DriveTime (osmOps lib contract coord fits) items a t → 0 < t ∧ t ≤ W := by
    rintro a ha t ⟨tags, v, d, htag, hv, hd, rfl⟩
    obtain ⟨d', e1, _, hn⟩ := earth_length hlib contract hc fits h ha
    rw [hd] at e1
    cases e1
    obtain ⟨hv1, hv2⟩ := hspeed a ha tags v htag hv
    have hl := hlong a ha
    have hn := abs_le.1 hn
    obtain ⟨v', hv', hpos⟩ := C46_speed_positive (lookup tags)
    rw [hv] at hv'
    cases hv'
    have h7 : (7 : ℝ) ≤ d := by linarith
    have h7 : 7 ≤ d := by exact_mod_cast h7
    have hup : (d : ℝ) * 3600 ≤ W * v := by linarith
    have hup : d * 3600 ≤ W * v := by exact_mod_cast hup
    refine ⟨Nat.div_pos (by omega) hpos.1, Nat.div_le_of_le_mul (by rw [Nat.mul_comm v]; exact hup)⟩
  have hdrive : ∀ x p y l, Drive (carArcs false items) (DriveTime (osmOps lib contract coord fits) items) x p y l → l = 0 → x = y := by
    intro x p y l h
    cases h with
    | stay => simp
    | along ha ht _ =>
      intro h0
      have := (htime _ ha _ ht).1
      omega
  obtain ⟨s1, s2⟩ := hsmall _ hR'
  obtain ⟨ch, hb, l1, l2⟩ := small_hierarchy hN s1 (fun x y p _ hp _ => hdrive x p y _ hp rfl) W (fun a ha t ht => (htime a ha t ht).2) s2 asserts hne junkF junkB
  exact ⟨_, hR', hprog asserts junkF junkB ch hb l1 l2⟩

/-- The hypotheses are satisfiable: the lane has two routing nodes, and takes at most 27 minutes. -/
example (contract contract' : Bool) (f : Fused) (fits : TurnDirection → ℝ × ℝ → ℝ × ℝ → ℝ × ℝ → Bool) (junk junkF junkB : Nat → Word) :
    ∃ ids, RoutingNodes false laneItems ids ∧
      ∀ (input : List ((ℝ × ℝ) × (ℝ × ℝ))), (∀ p ∈ input, FarFrom laneItems ids 20000 p.1 ∧ FarFrom laneItems ids 20000 p.2) →
        ∃ answers, readmeMainF (osmOps roundedLib contract osmCoord fits) (geoOps roundedLib contract' (buildDist roundedSingle f)) false true (fun _ => none)
            false true 0 (fun _ => 0) (fun _ less l => l.mergeSort fun a b => !less b a) junk junkF junkB (some 1000) sortNthF laneFile input = .ok answers ∧
          List.Forall₂ (NearAnswer (osmOps roundedLib contract osmCoord fits) laneItems ids 20000 1000) input answers := by
  have hseg : ∀ a ∈ carArcs false laneItems, a.seg = ⟨5, [], 6⟩ := by
    rw [laneArcs]
    intro a ha
    simp only [List.mem_cons, List.not_mem_nil, or_false] at ha
    rcases ha with rfl | rfl <;> rfl
  have hD := laneDist
  refine C89_small_networks_partial roundedLib_good roundedSingle_good contract contract' f osmCoord_good fits
    (by norm_num) (by norm_num) laneEarth (W := 1620000) ?_ ?_ ?_ false true 0 (fun _ => 0) exStdSort junk (radius := 1000) (by norm_num) (sortNthF_ok _ _ _)
    true (fun _ => by rw [laneArcs]; simp) junkF junkB
  · intro a ha
    rw [hseg a ha]
    simp only [exactLength, List.nil_append, pathLength, List.length_nil]
    norm_num
    linarith
  · intro a ha tags v htag hv
    obtain ⟨id, nodes, hm, _⟩ := htag
    simp only [laneItems, List.mem_cons, List.not_mem_nil, or_false, reduceCtorEq, false_or, OsmItem.way.injEq] at hm
    obtain ⟨_, _, rfl⟩ := hm
    have hv' : waySpeed (lookup roadTags) = some 25 := by decide +kernel
    rw [hv'] at hv
    cases hv
    refine ⟨by norm_num, ?_⟩
    rw [hseg a ha]
    simp only [exactLength, List.nil_append, pathLength, List.length_nil]
    norm_num
    linarith
  · intro ids hR
    have hsame : ids = [5, 6] := by
      refine List.Perm.eq_of_pairwise (le := (· < ·)) (fun a b _ _ x y => by omega) hR.1 (by decide) ?_
      exact (List.perm_ext_iff_of_nodup (hR.1.imp Nat.ne_of_lt) (by decide)).2 (fun x => by rw [hR.2, laneRouting]; simp)
    subst hsame
    decide

end RK.Props
