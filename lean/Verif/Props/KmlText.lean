import Verif.Proof.KmlText
import Verif.Props.ShowPath
/-! # C92: the text with the routes -/
namespace RK.Props
open RK Ieee _root_.Spec

/-- Finite numbers of type `float`. -/
def FiniteFloats (v : List FloatValue) : Prop := ∀ x ∈ v, ∃ neg m, x = .finite neg m ∧ IsBinary 24 (-126) 128 m

theorem identifies_mem {v : List FloatValue} (hv : FiniteFloats v) {i : Nat} {x : FloatValue} (h : v[i]? = some x) :
    (v.map FloatValue.value)[i]? = some x.value ∧ IdentifiesFloat (printTen x) x.value := by
  obtain ⟨neg, m, rfl, hm⟩ := hv x (List.mem_of_getElem? h)
  exact ⟨by rw [List.getElem?_map, h]; rfl, identifies_printTen hm⟩

theorem route_text {A : ArcRel} {lat lon : List FloatValue} (hlat : FiniteFloats lat) (hlon : FiniteFloats lon) {s t : Nat} {doc : PathDocument FloatValue}
    (h : DocumentFor A lat lon s t doc) : RouteText A (lat.map FloatValue.value) (lon.map FloatValue.value) s t (kmlText doc) := by
  obtain ⟨arcs, nodes, hr, hl, hd⟩ := h.route
  have point : ∀ {x : Nat} {p : FloatValue × FloatValue}, lon[x]? = some p.1 → lat[x]? = some p.2 →
      PointText (lat.map FloatValue.value) (lon.map FloatValue.value) x (printTen p.1, printTen p.2) := by
    intro x p h1 h2
    obtain ⟨a1, a2⟩ := identifies_mem hlon h1
    obtain ⟨b1, b2⟩ := identifies_mem hlat h2
    exact ⟨_, _, a1, b1, a2, b2⟩
  refine ⟨_, _, _, _, arcs, nodes, kmlText_eq doc, hr, point h.source.1 h.source.2, point h.target.1 h.target.2, ?_⟩
  rw [List.forall₂_iff_get]
  refine ⟨by simp [hl], ?_⟩
  intro i h1 h2
  obtain ⟨p, hp, g1, g2⟩ := hd i _ (List.getElem?_eq_getElem h1)
  have e : (doc.line.map fun p => (printTen p.1, printTen p.2)).get ⟨i, h2⟩ = (printTen p.1, printTen p.2) := by
    obtain ⟨h3, h4⟩ := List.getElem?_eq_some_iff.1 hp
    simp [h4]
  rw [e]
  exact point g1 g2

theorem routes_text {A : ArcRel} {lat lon : List FloatValue} (hlat : FiniteFloats lat) (hlon : FiniteFloats lon) {pairs : List (Nat × Nat)}
    {docs : List (PathDocument FloatValue)} (h : DocumentsFor A lat lon pairs docs) :
    List.Forall₂ (fun p d => RouteText A (lat.map FloatValue.value) (lon.map FloatValue.value) p.1 p.2 d) pairs (docs.map kmlText) := by
  rw [List.forall₂_iff_get]
  refine ⟨by simp [h.1], ?_⟩
  intro i h1 h2
  obtain ⟨doc, hdoc, hf⟩ := h.2 i _ _ (List.getElem?_eq_getElem h1)
  have e : (docs.map kmlText).get ⟨i, h2⟩ = kmlText doc := by
    obtain ⟨h3, h4⟩ := List.getElem?_eq_some_iff.1 hdoc
    simp [h4]
  rw [e]
  exact route_text hlat hlon hf

/-- **C92.** For the hierarchy file of a graph, finite coordinates of type `float`, and a text of pairs of nodes, the tool prints one KML document for each pair, in the order
of the input, with a shortest path of the graph. Each printed coordinate identifies the number of type `float`: no other one is as near to the printed decimal number.
If the next pair contains a number above the number of nodes, then the tool stops with an error after these documents. -/
theorem C92_text_partial (asserts hardened : Bool) (junkF junkB : Nat → Word) (pad : List Byte) (hpad : pad.length = 4)
    (disk : Disk) (n : Nat) (firstOut head weight : List Nat) (hG : ToolGraph n firstOut head weight)
    (hw : ∀ w ∈ weight, w ≤ 2 * lightArc) (ch : Ch)
    (hch : ToolHierarchy asserts hardened junkF junkB disk n firstOut head weight ch) :
    ∃ file, toolComputeCh asserts hardened junkF junkB pad disk firstOut head weight = .ok file ∧
      ∀ (latitude longitude : List FloatValue), n ≤ latitude.length → n ≤ longitude.length → FiniteFloats latitude → FiniteFloats longitude →
        ∀ (pairs : List (Nat × Nat)), (∀ p ∈ pairs, p.1 < n ∧ p.2 < n) → ∀ (text : List Char),
          (NumbersText text (pairs.flatMap fun p => [p.1, p.2]) →
            ∃ docs, toolShowPathText hardened (some file) latitude longitude text = .ok (docs.flatten, .finished) ∧
              List.Forall₂ (fun p d => RouteText (csrArcs firstOut head weight) (latitude.map FloatValue.value) (longitude.map FloatValue.value) p.1 p.2 d)
                pairs docs) ∧
          (∀ s t more, NumbersText text ((pairs.flatMap fun p => [p.1, p.2]) ++ s :: t :: more) → s < 2 ^ 32 → t < 2 ^ 32 →
            n < s ∨ n < t →
            ∃ docs, toolShowPathText hardened (some file) latitude longitude text = .ok (docs.flatten, .outOfBounds) ∧
              List.Forall₂ (fun p d => RouteText (csrArcs firstOut head weight) (latitude.map FloatValue.value) (longitude.map FloatValue.value) p.1 p.2 d)
                pairs docs) := by
  obtain ⟨file, e, h⟩ := C75_drawings_partial asserts hardened junkF junkB pad hpad disk n firstOut head weight hG hw ch hch
  refine ⟨file, e, fun lat lon hl1 hl2 hlat hlon pairs hp text => ⟨fun ht => ?_, fun s t more ht hs ht' hst => ?_⟩⟩
  · obtain ⟨docs, e2, hd⟩ := (h FloatValue lat lon hl1 hl2 pairs hp text).1 ht
    refine ⟨docs.map kmlText, ?_, routes_text hlat hlon hd⟩
    unfold toolShowPathText
    rw [e2, Res.ok_bind, List.flatMap_def]
  · obtain ⟨docs, e2, hd⟩ := (h FloatValue lat lon hl1 hl2 pairs hp text).2 s t more ht hs ht' hst
    refine ⟨docs.map kmlText, ?_, routes_text hlat hlon hd⟩
    unfold toolShowPathText
    rw [e2, Res.ok_bind, List.flatMap_def]

/-- The hypotheses hold for the sample graph of C68 with the coordinates 1, …, 5 and -0.5. -/
example : ∃ file docs, toolComputeCh true false (fun _ => 0) (fun _ => 0) [0, 0, 0, 0] sampleDisk sampleFirstOut sampleHead sampleWeight = .ok file ∧
    toolShowPathText false (some file) [.finite false 1, .finite false 2, .finite false 3, .finite false 4, .finite false 5]
      (List.replicate 5 (.finite true (1 / 2))) "0 3\n3\t2 6 0 1".toList = .ok (docs, .outOfBounds) := by
  obtain ⟨ch, hch⟩ := sampleTool_hierarchy
  obtain ⟨file, e, h⟩ := C92_text_partial true false (fun _ => 0) (fun _ => 0) [0, 0, 0, 0] rfl sampleDisk 5 sampleFirstOut sampleHead
    sampleWeight sampleTool_graph (by decide) ch hch
  have nat : ∀ k : ℕ, k < 10 → ∃ neg m, FloatValue.finite false (k : ℝ) = .finite neg m ∧ IsBinary 24 (-126) 128 m := by
    intro k hk
    have hk' : (k : ℝ) < 10 := by exact_mod_cast hk
    refine ⟨false, k, rfl, k, 0, by norm_num; omega, by norm_num, by norm_num, lt_trans hk' (by norm_num)⟩
  obtain ⟨docs, e2, _⟩ := (h [.finite false 1, .finite false 2, .finite false 3, .finite false 4, .finite false 5] (List.replicate 5 (.finite true (1 / 2)))
    (by decide) (by decide)
    (by
      intro x hx
      simp only [List.mem_cons, List.not_mem_nil, or_false] at hx
      rcases hx with rfl | rfl | rfl | rfl | rfl
      · simpa using nat 1 (by norm_num)
      · simpa using nat 2 (by norm_num)
      · simpa using nat 3 (by norm_num)
      · simpa using nat 4 (by norm_num)
      · simpa using nat 5 (by norm_num))
    (by
      intro x hx
      rw [List.eq_of_mem_replicate hx]
      exact ⟨_, _, rfl, 1, -1, by norm_num, by norm_num, by norm_num, by norm_num⟩)
    [(0, 3), (3, 2)] (by decide) _).2 6 0 [1] numbersText_example (by decide) (by decide) (by decide)
  exact ⟨file, _, e, e2⟩

end RK.Props
