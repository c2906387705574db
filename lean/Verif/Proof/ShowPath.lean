import Verif.Model.ShowPath
import Verif.Spec.ShowPath
import Verif.Proof.TextIO
import Verif.Proof.Tools
/-! Helper lemmas for show_path. -/
namespace RK
open Spec Props

theorem isWhite_isSpace {c : Char} (h : IsWhite c) : isSpace c = true := by
  rcases h with h | h
  · exact isBlank_isSpace h
  · exact isSpace_iff.2 (Or.inr h)

theorem dropWhile_white : ∀ {gap : List Char}, (∀ c ∈ gap, IsWhite c) → gap.dropWhile isSpace = []
  | [], _ => rfl
  | c :: l, h => by
    rw [List.dropWhile_cons, if_pos (isWhite_isSpace (h c (List.mem_cons_self ..)))]
    exact dropWhile_white (fun d hd => h d (List.mem_cons_of_mem _ hd))

theorem readUnsigned_end {text : List Char} (h : NumbersText text []) : readUnsigned text = none := by
  cases h with
  | nil _ hg =>
    unfold readUnsigned readDecimal
    rw [dropWhile_white hg]
    rfl

theorem readUnsigned_number {text : List Char} {v : Nat} {vs : List Nat} (h : NumbersText text (v :: vs)) (hv : v < u32) :
    ∃ rest, readUnsigned text = some (v, rest) ∧ NumbersText rest vs ∧ rest.length < text.length := by
  cases h with
  | cons gap w rest _ _ hg hw hr hn =>
    have hne := hw.1
    obtain ⟨d, w', rfl⟩ := List.exists_cons_of_ne_nil hne
    have hdd := hw.2.1 d (List.mem_cons_self ..)
    have hnsp : isSpace d = false := by
      rw [Bool.eq_false_iff]
      intro hs
      have := isSpace_not_isDigit hs
      rw [hdd] at this
      cases this
    have h0 : (gap ++ (d :: w') ++ rest).dropWhile isSpace = (d :: w') ++ rest := by
      rw [List.append_assoc]
      refine dropWhile_append_of (fun c hc => isWhite_isSpace (hg c hc)) ?_
      intro c hc
      simp only [List.cons_append, List.head?_cons, Option.some.injEq] at hc
      rw [← hc]
      exact hnsp
    have h1 : ((d :: w') ++ rest).takeWhile Char.isDigit = d :: w' :=
      takeWhile_append_of hw.2.1 (fun c hc => isSpace_not_isDigit (isWhite_isSpace (hr c hc)))
    have h2 : ((d :: w') ++ rest).dropWhile Char.isDigit = rest :=
      dropWhile_append_of hw.2.1 (fun c hc => isSpace_not_isDigit (isWhite_isSpace (hr c hc)))
    have h3 : readSign ((d :: w') ++ rest) = (false, (d :: w') ++ rest) :=
      readSign_other (fun e => by subst e; exact absurd hdd (by decide)) (fun e => by subst e; exact absurd hdd (by decide))
    refine ⟨rest, ?_, hn, ?_⟩
    · simp only [readUnsigned, readDecimal, h0, h3, h1, h2, if_neg hne, hw.2.2, Option.bind_eq_bind, Option.bind_some, if_pos hv,
        Bool.false_eq_true, if_false]
    · simp only [List.length_append, List.length_cons]
      omega

theorem readPair_numbers {text : List Char} {s t : Nat} {vs : List Nat} (h : NumbersText text (s :: t :: vs)) (hs : s < u32) (ht : t < u32) :
    ∃ rest, readPair text = some (s, t, rest) ∧ NumbersText rest vs ∧ rest.length < text.length := by
  obtain ⟨r1, e1, h1, l1⟩ := readUnsigned_number h hs
  obtain ⟨r2, e2, h2, l2⟩ := readUnsigned_number h1 ht
  refine ⟨r2, ?_, h2, Nat.lt_trans l2 l1⟩
  unfold readPair
  simp only [e1, e2, Option.bind_eq_bind, Option.bind_some]

theorem readPair_end {text : List Char} (h : NumbersText text []) : readPair text = none := by
  unfold readPair
  rw [readUnsigned_end h]
  rfl

theorem coordinateOf_ok {α : Type} {lat lon : List α} {n x : Nat} (hlat : n ≤ lat.length) (hlon : n ≤ lon.length) (hx : x < n) :
    ∃ p, coordinateOf lat lon x = some p ∧ lon[x]? = some p.1 ∧ lat[x]? = some p.2 := by
  obtain ⟨a, ha⟩ := rd_isSome (v := lon) (i := x) (by omega)
  obtain ⟨b, hb⟩ := rd_isSome (v := lat) (i := x) (by omega)
  refine ⟨(a, b), ?_, ha, hb⟩
  unfold coordinateOf
  simp only [ha, hb, Option.bind_eq_bind, Option.bind_some]

theorem line_ok {α : Type} {lat lon : List α} {n : Nat} (hlat : n ≤ lat.length) (hlon : n ≤ lon.length) :
    ∀ (nodes : List Nat), (∀ x ∈ nodes, x < n) → ∃ line, nodes.mapM (coordinateOf lat lon) = some line ∧ Drawing lat lon nodes line
  | [], _ => ⟨[], rfl, rfl, fun i x h => by simp at h⟩
  | x :: l, h => by
    obtain ⟨p, e, h1, h2⟩ := coordinateOf_ok hlat hlon (h x (List.mem_cons_self ..))
    obtain ⟨line, e', hl, hd⟩ := line_ok hlat hlon l (fun y hy => h y (List.mem_cons_of_mem _ hy))
    refine ⟨p :: line, ?_, by simp [hl], ?_⟩
    · rw [List.mapM_cons, e, e']
      rfl
    · intro i y hy
      cases i with
      | zero =>
        simp only [List.getElem?_cons_zero, Option.some.injEq] at hy
        subst hy
        exact ⟨p, rfl, h1, h2⟩
      | succ i =>
        simp only [List.getElem?_cons_succ] at hy ⊢
        exact hd i y hy

theorem nodesOf_lt {A : ArcRel} {n : Nat} (hA : ∀ a x y w, A a x y w → y < n) {s : Nat} {arcs nodes : List Nat} (h : NodesOf A s arcs nodes)
    (hs : s < n) : ∀ x ∈ nodes, x < n := by
  induction h with
  | nil => simpa using hs
  | cons h1 _ ih =>
    intro x hx
    rcases List.mem_cons.1 hx with rfl | hx
    · exact hs
    · exact ih (hA _ _ _ _ h1) x hx

/-- One query with a used object. -/
theorem routeQuery_ok {q : ChQuery} {S : QState} (hc : QRep q S) {s t : Nat} (hsn : s < S.graph.n) (htn : t < S.graph.n) :
    ∃ q0 q1 q2 q' S' d arcs nodes, q.reset = some q0 ∧ q0.addSource s 0 = some q1 ∧ q1.addTarget t 0 = some q2 ∧ q2.run = some q' ∧
      q'.getDistance = some d ∧ q'.getNodePath = some nodes ∧ QRep q' S' ∧ S'.graph = S.graph ∧ ShortestRoute S.graph.arcs s t d arcs nodes := by
  obtain ⟨q0, _, _, e0, ⟨_, rfl⟩, h0⟩ := chCall_spec (op := .reset) hc trivial
  simp only [chCall, Option.map_eq_some_iff, Prod.mk.injEq] at e0
  obtain ⟨q0', e0, rfl, _⟩ := e0
  obtain ⟨q1, e1, h1⟩ := addSourcesCh_spec [(s, 0)] h0 (Or.inl rfl) (by simpa [QState.fresh, unreachable] using hsn)
  obtain ⟨q2, e2, h2⟩ := addTargetsCh_spec [(t, 0)] h1 (Or.inl rfl) (by simpa [QState.fresh, unreachable] using htn)
  simp only [QState.fresh, List.nil_append] at h2
  obtain ⟨q3, out, s', e3, ⟨_, rfl⟩, h3⟩ := chCall_spec (op := .run) h2 ⟨rfl, by simp, by simp⟩
  simp only [chCall, Option.map_eq_some_iff, Prod.mk.injEq] at e3
  obtain ⟨q3', e3, rfl, rfl⟩ := e3
  obtain ⟨ch', c1, c2, c3⟩ := h3.ex
  obtain ⟨r, r1, r2, r3, r4, r5, r6⟩ := results_spec c2 c1 h3.srcLt h3.tgtLt c3
  have a1 : q0'.addSource s 0 = some q1 := by simpa [addSourcesCh] using e1
  have a2 : q1.addTarget t 0 = some q2 := by simpa [addTargetsCh] using e2
  simp only at r6
  have low : ∀ k, NoRouteBelow S.graph.arcs [(s, 0)] [(t, 0)] k → ∀ p l, Walk S.graph.arcs s p t l → k ≤ l :=
    fun k hk p l hw => hk s t p l ⟨0, 0, l, by simp, by simp, hw, by omega⟩
  refine ⟨q0', q1, q2, q3', _, r.distance, r.arcs, r.nodes, e0, a1, a2, e3, r1, r5, h3, rfl, ?_⟩
  rcases r6 with ⟨h1, ⟨ds, dt, l, h2, h3, h4, h5⟩, h6, h7⟩ | ⟨h1, _, _, h4, h5, h6⟩
  · left
    simp only [List.mem_singleton, Prod.mk.injEq] at h2 h3
    obtain ⟨g1, rfl⟩ := h2
    obtain ⟨g2, rfl⟩ := h3
    rw [g1, g2] at h4
    rw [g1] at h6
    have : r.distance = l := by omega
    rw [← this] at h4
    exact ⟨h1, ⟨⟨_, h4⟩, low _ h7⟩, h4, h6⟩
  · exact Or.inr ⟨h1, low _ h6, h4, h5⟩

theorem pathDocument_ok {α : Type} {q : ChQuery} {S : QState} (hc : QRep q S) {lat lon : List α} (hlat : S.graph.n ≤ lat.length)
    (hlon : S.graph.n ≤ lon.length) (hA : ∀ a x y w, S.graph.arcs a x y w → y < S.graph.n) {s t : Nat} (hsn : s < S.graph.n) (htn : t < S.graph.n) :
    ∃ q' S' doc, pathDocument lat lon q s t = some (q', doc) ∧ QRep q' S' ∧ S'.graph = S.graph ∧
      DocumentFor S.graph.arcs lat lon s t doc := by
  obtain ⟨q0, q1, q2, q', S', d, arcs, nodes, e0, a1, a2, e3, r1, r5, h3, hS, hroute⟩ := routeQuery_ok hc hsn htn
  have hnodes : ∀ x ∈ nodes, x < S.graph.n := by
    rcases hroute with ⟨_, _, _, h⟩ | ⟨_, _, _, h⟩
    · exact nodesOf_lt hA h hsn
    · rw [h]; simp
  obtain ⟨p1, f1, g1⟩ := coordinateOf_ok hlat hlon hsn
  obtain ⟨p2, f2, g2⟩ := coordinateOf_ok hlat hlon htn
  obtain ⟨line, f3, g3⟩ := line_ok hlat hlon nodes hnodes
  refine ⟨q', S', ⟨p1, p2, d, line⟩, ?_, h3, hS, g1, g2, arcs, nodes, hroute, g3⟩
  unfold pathDocument
  simp only [e0, a1, a2, e3, r1, r5, f1, f2, f3, Option.bind_eq_bind, Option.bind_some]

theorem showPaths_pairs {α : Type} {lat lon : List α} {G : QGraph} (hlat : G.n ≤ lat.length) (hlon : G.n ≤ lon.length) (hn : G.n < u32)
    (hA : ∀ a x y w, G.arcs a x y w → y < G.n) : ∀ (pairs : List (Nat × Nat)) {more : List Nat} {text : Text} {fuel : Nat} {q : ChQuery}
    {S : QState} {docs : List (PathDocument α)}, QRep q S → S.graph = G → (∀ p ∈ pairs, p.1 < G.n ∧ p.2 < G.n) →
    NumbersText text (pairs.flatMap (fun p => [p.1, p.2]) ++ more) → text.length < fuel →
    ∃ fuel' q' S' rest docs', showPaths lat lon G.n fuel q text docs = showPaths lat lon G.n fuel' q' rest (docs ++ docs') ∧
      QRep q' S' ∧ S'.graph = G ∧ NumbersText rest more ∧ rest.length < fuel' ∧ DocumentsFor G.arcs lat lon pairs docs'
  | [], more, text, fuel, q, S, docs, hq, hS, _, ht, hf =>
    ⟨fuel, q, S, text, [], by rw [List.append_nil], hq, hS, ht, hf, rfl, fun i s t h => by simp at h⟩
  | p :: l, more, text, fuel, q, S, docs, hq, hS, hp, ht, hf => by
    obtain ⟨s, t⟩ := p
    obtain ⟨h1, h2⟩ := hp (s, t) (List.mem_cons_self ..)
    simp only at h1 h2
    simp only [List.flatMap_cons, List.cons_append, List.nil_append] at ht
    obtain ⟨rest, e, hr, hl⟩ := readPair_numbers ht (by omega) (by omega)
    subst hS
    obtain ⟨q', S', doc, e1, hq', hS', hd⟩ := pathDocument_ok hq hlat hlon hA h1 h2
    cases fuel with
    | zero => omega
    | succ fuel =>
      obtain ⟨fuel', q2, S2, rest2, docs2, g1, g2, g3, g4, g5, g6, g7⟩ := showPaths_pairs hlat hlon hn hA l (docs := docs ++ [doc]) (fuel := fuel)
        hq' hS' (fun p hp' => hp p (List.mem_cons_of_mem _ hp')) hr (by omega)
      refine ⟨fuel', q2, S2, rest2, doc :: docs2, ?_, g2, g3, g4, g5, by simp [g6], ?_⟩
      · rw [showPaths, e]
        simp only [show ¬ s > S.graph.n by omega, show ¬ t > S.graph.n by omega, if_false, e1, Res.ofOption_some, Res.ok_bind]
        rw [g1, List.append_assoc]
        rfl
      · intro i x y hi
        cases i with
        | zero =>
          simp only [List.getElem?_cons_zero, Option.some.injEq, Prod.mk.injEq] at hi
          obtain ⟨rfl, rfl⟩ := hi
          exact ⟨doc, rfl, hd⟩
        | succ i =>
          simp only [List.getElem?_cons_succ] at hi ⊢
          exact g7 i x y hi

theorem showPaths_done {α : Type} {lat lon : List α} {n fuel : Nat} {q : ChQuery} {text : Text} {docs : List (PathDocument α)}
    (ht : NumbersText text []) (hf : text.length < fuel) : showPaths lat lon n fuel q text docs = .ok (docs, .finished) := by
  cases fuel with
  | zero => omega
  | succ fuel => rw [showPaths, readPair_end ht]

theorem showPaths_beyond {α : Type} {lat lon : List α} {n fuel : Nat} {q : ChQuery} {text : Text} {docs : List (PathDocument α)} {s t : Nat}
    {more : List Nat} (ht : NumbersText text (s :: t :: more)) (hs : s < u32) (ht' : t < u32) (h : n < s ∨ n < t) (hf : text.length < fuel) :
    showPaths lat lon n fuel q text docs = .ok (docs, .outOfBounds) := by
  obtain ⟨rest, e, _⟩ := readPair_numbers ht hs ht'
  cases fuel with
  | zero => omega
  | succ fuel =>
    rw [showPaths, e]
    simp only
    by_cases h1 : s > n
    · rw [if_pos h1]
    · rw [if_neg h1, if_pos (by omega)]

theorem pathDocument_at_count {α : Type} {lat lon : List α} {q : ChQuery} {S : QState} (hc : QRep q S) {s t : Nat}
    (h : S.graph.n ≤ s ∨ S.graph.n ≤ t) : pathDocument lat lon q s t = none := by
  obtain ⟨q0, _, _, e0, ⟨_, rfl⟩, h0⟩ := chCall_spec (op := .reset) hc trivial
  simp only [chCall, Option.map_eq_some_iff, Prod.mk.injEq] at e0
  obtain ⟨q0', e0, rfl, _⟩ := e0
  unfold pathDocument
  simp only [e0, Option.bind_eq_bind, Option.bind_some]
  obtain ⟨ch, c1, c2, c3⟩ := h0.ex
  have hl : ch.rank.length = S.graph.n := c2.ok.rankLen
  by_cases h1 : s < S.graph.n
  · have h2 : S.graph.n ≤ t := by omega
    cases e1 : q0'.addSource s 0 with
    | none => rfl
    | some q1 =>
      have e3 : q1.ch = some ch := by
        unfold ChQuery.addSource at e1
        simp only [Option.bind_eq_bind, Option.bind_eq_some_iff, Option.some.injEq] at e1
        obtain ⟨_, _, _, _, _, _, _, _, rfl⟩ := e1
        exact c1
      have e2 : q1.addTarget t 0 = none := by
        unfold ChQuery.addTarget
        rw [e3, Option.bind_eq_bind, Option.bind_some, decide_eq_false (by omega)]
        rfl
      simp only [Option.bind_some, e2, Option.bind_none]
  · have e1 : q0'.addSource s 0 = none := by
      unfold ChQuery.addSource
      rw [c1, Option.bind_eq_bind, Option.bind_some, decide_eq_false (by omega)]
      rfl
    simp only [e1, Option.bind_none]

theorem showPaths_at_count {α : Type} {lat lon : List α} {q : ChQuery} {S : QState} (hc : QRep q S) {fuel : Nat} {text : Text}
    {docs : List (PathDocument α)} {s t : Nat} {more : List Nat} (ht : NumbersText text (s :: t :: more)) (hn : S.graph.n < u32)
    (hs : s ≤ S.graph.n) (ht' : t ≤ S.graph.n) (h : s = S.graph.n ∨ t = S.graph.n) :
    showPaths lat lon S.graph.n fuel q text docs = .ub := by
  obtain ⟨rest, e, _⟩ := readPair_numbers ht (by omega) (by omega)
  cases fuel with
  | zero => rfl
  | succ fuel =>
    rw [showPaths, e]
    simp only [show ¬ s > S.graph.n by omega, show ¬ t > S.graph.n by omega, if_false, pathDocument_at_count hc (s := s) (t := t) (by omega)]
    rfl

end RK
