import Verif.Model.DimacsCoord
import Verif.Spec.DimacsCoord
import Verif.Proof.DimacsAny
/-! # Import of DIMACS coordinates -/
namespace RK
open Spec

theorem readWord_end {s : Text} (h : IsWords s []) : readWord s = none := by
  cases h with
  | nil gap hg =>
    have : s.dropWhile isSpace = [] := by
      have := dropWhile_append_of (p := isSpace) (a := s) (b := []) (fun c hc => isBlank_isSpace (hg c hc)) (by simp)
      rwa [List.append_nil] at this
    unfold readWord
    simp [this]

theorem readInt64_words {text w : List Char} {ws : List (List Char)} {v : Int} (h : IsWords text (w :: ws)) (hv : IsInteger w v) :
    ∃ rest, (∀ _ : Fits64 v, readInt64 text = some (v, rest)) ∧ (¬ Fits64 v → readInt64 text = none) ∧ IsWords rest ws := by
  obtain ⟨hne, hw, rest, hd, hws, hr⟩ := isWords_cons h
  obtain ⟨d, k, hk, hcase⟩ := hv
  have h1 : (d ++ rest).takeWhile Char.isDigit = d :=
    takeWhile_append_of hk.2.1 (fun c hc => isSpace_not_isDigit (hr c hc))
  have h2 : (d ++ rest).dropWhile Char.isDigit = rest :=
    dropWhile_append_of hk.2.1 (fun c hc => isSpace_not_isDigit (hr c hc))
  have key : ∃ neg, readDecimal text = some (neg, k, rest) ∧ v = if neg then -(k : Int) else k := by
    rcases hcase with ⟨rfl, rfl⟩ | ⟨rfl, rfl⟩ | ⟨rfl, rfl⟩
    · obtain ⟨c, w', rfl⟩ := List.exists_cons_of_ne_nil hk.1
      have hc : c.isDigit = true := hk.2.1 c (by simp)
      refine ⟨false, ?_, rfl⟩
      unfold readDecimal
      rw [hd, List.cons_append, readSign_other (by rintro rfl; revert hc; decide) (by rintro rfl; revert hc; decide)]
      rw [List.cons_append] at h1 h2
      simp only [h1, h2, if_neg hk.1, hk.2.2]
    · refine ⟨false, ?_, rfl⟩
      unfold readDecimal
      rw [hd, List.cons_append]
      simp only [readSign, h1, h2, if_neg hk.1, hk.2.2]
    · refine ⟨true, ?_, rfl⟩
      unfold readDecimal
      rw [hd, List.cons_append]
      simp only [readSign, h1, h2, if_neg hk.1, hk.2.2]
  obtain ⟨neg, e, hval⟩ := key
  refine ⟨rest, ?_, ?_, hws⟩
  · intro hf
    unfold readInt64
    simp only [e, Option.bind_eq_bind, Option.bind_some]
    unfold Fits64 at hf
    cases neg with
    | true =>
      simp only [if_true] at hval ⊢
      rw [if_pos (by omega), hval]
    | false =>
      simp only [Bool.false_eq_true, if_false] at hval ⊢
      rw [if_pos (by omega), hval]
  · intro hf
    unfold readInt64
    simp only [e, Option.bind_eq_bind, Option.bind_some]
    unfold Fits64 at hf
    cases neg with
    | true =>
      simp only [if_true] at hval ⊢
      rw [if_neg (by omega)]
    | false =>
      simp only [Bool.false_eq_true, if_false] at hval ⊢
      rw [if_neg (by omega)]

instance (v : Int) : Decidable (Fits64 v) := inferInstanceAs (Decidable (_ ∧ _))

section
variable {α : Type} {conv : Int → α} {zero : α}

/-- A point that the loop accepts unless its node was seen. -/
def PointOk (n : Nat) (p : CoordPoint) : Prop := 1 ≤ p.node ∧ p.node ≤ n ∧ Fits64 p.lon ∧ Fits64 p.lat

/-- Stores a point. -/
def storePoint (conv : Int → α) (s : CoordState α) (p : CoordPoint) : CoordState α :=
  { s with seen := s.seen.set (p.node - 1) true, longitude := s.longitude.set (p.node - 1) (conv p.lon),
           latitude := s.latitude.set (p.node - 1) (conv p.lat) }

/-- The variables after the points `done`. -/
structure CoordInv (conv : Int → α) (n : Nat) (done : List CoordPoint) (s : CoordState α) : Prop where
  count : s.nodeCount = some n
  seenLen : s.seen.length = n
  lonLen : s.longitude.length = n
  latLen : s.latitude.length = n
  seen : ∀ j < n, rd s.seen j = some (decide (j + 1 ∈ done.map CoordPoint.node))
  values : ∀ p ∈ done, rd s.longitude (p.node - 1) = some (conv p.lon) ∧ rd s.latitude (p.node - 1) = some (conv p.lat)
  ok : ∀ p ∈ done, PointOk n p
  once : (done.map CoordPoint.node).Nodup

theorem coordLine_comment {s : CoordState α} {t : List Char} (h : IsCommentText t) : coordLine conv zero s t = .ok s := by
  unfold coordLine
  rw [if_pos (show t = [] ∨ t.head? = some 'c' from h)]

theorem coordLine_header {s : CoordState α} {t : List Char} {n : Nat} (hs : s.nodeCount = none) (h : (CoordLine.header n).Reads t) :
    coordLine conv zero s t = if n < u32 then .ok ⟨some n, List.replicate n zero, List.replicate n zero, List.replicate n false⟩ else .error := by
  obtain ⟨a, hw, ha⟩ := h
  unfold coordLine
  rw [if_neg (words_not_comment hw (by decide)), hs]
  obtain ⟨r1, e1, hw1⟩ := readWord_words hw
  obtain ⟨r2, e2, hw2⟩ := readWord_words hw1
  obtain ⟨r3, e3, hw3⟩ := readWord_words hw2
  obtain ⟨r4, e4, hw4⟩ := readWord_words hw3
  obtain ⟨r5, e5, hw5⟩ := readUnsigned_words hw4 ha
  have e6 := readWord_end hw5
  unfold coordHeader coordHeaderFields
  by_cases hn : n < u32
  · rw [if_pos hn] at e5
    simp [e1, e2, e3, e4, e5, e6, hn, check]
  · rw [if_neg hn] at e5
    simp [e1, e2, e3, e4, e5, hn, check]

theorem coordLine_point {s : CoordState α} {t : List Char} {n : Nat} {p : CoordPoint} {done : List CoordPoint} (hn : n < u32)
    (hs : CoordInv conv n done s) (h : (CoordLine.point p).Reads t) :
    (PointOk n p ∧ p.node ∉ done.map CoordPoint.node → ∃ s', coordLine conv zero s t = .ok s' ∧ CoordInv conv n (done ++ [p]) s') ∧
    (¬ (PointOk n p ∧ p.node ∉ done.map CoordPoint.node) → coordLine conv zero s t = .error) := by
  obtain ⟨a, b, c, hw, ha, hb, hc⟩ := h
  have hnc := words_not_comment hw (by decide)
  obtain ⟨r1, e1, hw1⟩ := readWord_words hw
  obtain ⟨r2, e2, hw2⟩ := readUnsigned_words hw1 ha
  obtain ⟨r3, g3, f3, hw3⟩ := readInt64_words hw2 hb
  obtain ⟨r4, g4, f4, hw4⟩ := readInt64_words hw3 hc
  have e5 := readWord_end hw4
  -- the fields
  have hfields : coordFields t = if p.node < u32 ∧ Fits64 p.lon ∧ Fits64 p.lat then some (p.node, p.lon, p.lat) else none := by
    unfold coordFields
    by_cases h1 : p.node < u32
    · rw [if_pos h1] at e2
      by_cases h2 : Fits64 p.lon
      · by_cases h3 : Fits64 p.lat
        · simp [e1, e2, g3 h2, g4 h3, e5, h1, h2, h3, check]
        · simp [e1, e2, g3 h2, f4 h3, h1, h2, h3, check]
      · simp [e1, e2, f3 h2, h1, h2, check]
    · rw [if_neg h1] at e2
      simp [e1, e2, h1, check]
  have hline : coordLine conv zero s t = coordPoint conv s n t := by
    unfold coordLine
    rw [if_neg hnc, hs.count]
  constructor
  · rintro ⟨⟨p1, p2, p3, p4⟩, hnew⟩
    have hu : p.node < u32 := by omega
    have hdec := dec32_pos p1 hu
    have hlt : p.node - 1 < n := by omega
    refine ⟨storePoint conv s p, ?_, ?_⟩
    · rw [hline]
      unfold coordPoint
      rw [hfields, if_pos ⟨hu, p3, p4⟩]
      have hseen := hs.seen (p.node - 1) hlt
      rw [show p.node - 1 + 1 = p.node by omega, decide_eq_false hnew] at hseen
      simp only [hdec]
      unfold coordStore
      simp only [decide_eq_true hlt, Res.require_true, Res.ok_bind, hseen, Res.ofOption_some, Bool.not_false]
      rw [wr_lt (by rw [hs.seenLen]; exact hlt), wr_lt (by rw [hs.lonLen]; exact hlt), wr_lt (by rw [hs.latLen]; exact hlt)]
      rfl
    · refine ⟨hs.count, by simp [storePoint, hs.seenLen], by simp [storePoint, hs.lonLen], by simp [storePoint, hs.latLen], ?_, ?_, ?_, ?_⟩
      · intro j hj
        simp only [storePoint]
        rw [rd_set (by rw [hs.seenLen]; exact hlt)]
        by_cases hje : j = p.node - 1
        · rw [if_pos hje, decide_eq_true]
          rw [List.map_append, List.mem_append]
          right
          simp only [List.map_cons, List.map_nil, List.mem_singleton]
          omega
        · rw [if_neg hje, hs.seen j hj]
          have hiff : j + 1 ∈ done.map CoordPoint.node ↔ j + 1 ∈ (done ++ [p]).map CoordPoint.node := by
            rw [List.map_append, List.mem_append]
            simp only [List.map_cons, List.map_nil, List.mem_singleton]
            constructor
            · exact Or.inl
            · rintro (h | h)
              · exact h
              · omega
          rw [decide_eq_decide.2 hiff]
      · intro q hq
        simp only [storePoint]
        rw [rd_set (by rw [hs.lonLen]; exact hlt), rd_set (by rw [hs.latLen]; exact hlt)]
        rcases List.mem_append.1 hq with hq | hq
        · have hne : q.node ≠ p.node := by
            intro he
            exact hnew (he ▸ List.mem_map_of_mem hq)
          have hq1 := (hs.ok q hq).1
          rw [if_neg (by omega), if_neg (by omega)]
          exact hs.values q hq
        · rw [List.mem_singleton] at hq
          subst hq
          simp
      · intro q hq
        rcases List.mem_append.1 hq with hq | hq
        · exact hs.ok q hq
        · rw [List.mem_singleton] at hq
          subst hq
          exact ⟨p1, p2, p3, p4⟩
      · rw [List.map_append, List.nodup_append]
        refine ⟨hs.once, by simp, ?_⟩
        intro x hx y hy
        simp only [List.map_cons, List.map_nil, List.mem_singleton] at hy
        rintro rfl
        exact hnew (hy ▸ hx)
  · intro hbad
    rw [hline]
    unfold coordPoint
    rw [hfields]
    by_cases h1 : p.node < u32 ∧ Fits64 p.lon ∧ Fits64 p.lat
    · rw [if_pos h1]
      simp only
      unfold coordStore
      by_cases h2 : dec32 p.node < n
      · have hp1 : 1 ≤ p.node := by
          rcases Nat.eq_zero_or_pos p.node with h0 | h0
          · rw [h0, dec32_zero] at h2
            unfold u32 at hn; omega
          · exact h0
        have hdec := dec32_pos hp1 h1.1
        rw [hdec] at h2
        have hmem : p.node ∈ done.map CoordPoint.node := by
          by_contra hc
          exact hbad ⟨⟨hp1, by omega, h1.2⟩, hc⟩
        have hseen := hs.seen (p.node - 1) h2
        rw [show p.node - 1 + 1 = p.node by omega, decide_eq_true hmem] at hseen
        simp only [hdec, decide_eq_true h2, Res.require_true, Res.ok_bind, hseen, Res.ofOption_some, Bool.not_true, Res.require_false, Res.error_bind]
      · simp only [decide_eq_false h2, Res.require_false, Res.error_bind]
    · rw [if_neg h1]

theorem coordReads_no_newline {l : CoordLine} {t : List Char} (h : l.Reads t) : '\n' ∉ t := by
  cases l with
  | comment => exact h.2
  | header n => obtain ⟨_, hw, _⟩ := h; exact isWords_no_newline hw
  | point p => obtain ⟨_, _, _, hw, _⟩ := h; exact isWords_no_newline hw

/-- The lines that the loop sees: one text per line; only an empty last line may be missing. -/
theorem coordFile_lines {ls : List CoordLine} {text : List Char} (h : CoordFileOf ls text) : ∀ (s : CoordState α),
    ∃ ts : List (List Char), ts.length = ls.length ∧ (∀ (i : Nat) (l : CoordLine) (t : List Char), ls[i]? = some l → ts[i]? = some t → l.Reads t) ∧
      (getLines text).foldlM (coordLine conv zero) s = ts.foldlM (coordLine conv zero) s := by
  induction h with
  | nil => intro s; exact ⟨[], rfl, by simp, rfl⟩
  | last l t hr =>
    intro s
    refine ⟨[t], rfl, ?_, ?_⟩
    · intro i l' t' h1 h2
      cases i with
      | zero => simp only [List.getElem?_cons_zero, Option.some.injEq] at h1 h2; subst h1; subst h2; exact hr
      | succ i => simp at h1
    · rw [getLines_last (coordReads_no_newline hr)]
      by_cases ht : t = []
      · subst ht
        rw [if_pos rfl]
        simp only [List.foldlM_nil, List.foldlM_cons, coordLine_comment (conv := conv) (zero := zero) (s := s) (Or.inl rfl : IsCommentText []), Res.ok_bind]
      · rw [if_neg ht]
  | cons l ls t rest hr _ ih =>
    intro s
    rw [getLines_line (coordReads_no_newline hr), List.foldlM_cons]
    cases hc : coordLine conv zero s t with
    | ok s' =>
      obtain ⟨ts, h1, h2, h3⟩ := ih s'
      refine ⟨t :: ts, by simp [h1], ?_, ?_⟩
      · intro i l' t' g1 g2
        cases i with
        | zero => simp only [List.getElem?_cons_zero, Option.some.injEq] at g1 g2; subst g1; subst g2; exact hr
        | succ i => simp only [List.getElem?_cons_succ] at g1 g2; exact h2 i l' t' g1 g2
      · rw [List.foldlM_cons, hc, Res.ok_bind, Res.ok_bind, h3]
    | error =>
      obtain ⟨ts, h1, h2, _⟩ := ih s
      refine ⟨t :: ts, by simp [h1], ?_, by rw [List.foldlM_cons, hc]; rfl⟩
      intro i l' t' g1 g2
      cases i with
      | zero => simp only [List.getElem?_cons_zero, Option.some.injEq] at g1 g2; subst g1; subst g2; exact hr
      | succ i => simp only [List.getElem?_cons_succ] at g1 g2; exact h2 i l' t' g1 g2
    | ub =>
      obtain ⟨ts, h1, h2, _⟩ := ih s
      refine ⟨t :: ts, by simp [h1], ?_, by rw [List.foldlM_cons, hc]; rfl⟩
      intro i l' t' g1 g2
      cases i with
      | zero => simp only [List.getElem?_cons_zero, Option.some.injEq] at g1 g2; subst g1; subst g2; exact hr
      | succ i => simp only [List.getElem?_cons_succ] at g1 g2; exact h2 i l' t' g1 g2

theorem fold_points {n : Nat} (hn : n < u32) : ∀ (ls : List CoordLine) (ts : List (List Char)) (done : List CoordPoint) (s : CoordState α),
    CoordInv conv n done s → ts.length = ls.length → (∀ (i : Nat) (l : CoordLine) (t : List Char), ls[i]? = some l → ts[i]? = some t → l.Reads t) →
    (∀ l ∈ ls, ∀ n', l ≠ .header n') →
    ((∀ p ∈ ls.filterMap CoordLine.toPoint, PointOk n p) ∧ ((done ++ ls.filterMap CoordLine.toPoint).map CoordPoint.node).Nodup →
      ∃ s', ts.foldlM (coordLine conv zero) s = .ok s' ∧ CoordInv conv n (done ++ ls.filterMap CoordLine.toPoint) s') ∧
    (¬ ((∀ p ∈ ls.filterMap CoordLine.toPoint, PointOk n p) ∧ ((done ++ ls.filterMap CoordLine.toPoint).map CoordPoint.node).Nodup) →
      ts.foldlM (coordLine conv zero) s = .error)
  | [], ts, done, s, hs, hl, _, _ => by
    rw [List.length_nil, List.length_eq_zero_iff] at hl
    subst hl
    refine ⟨fun _ => ⟨s, rfl, by simpa using hs⟩, fun h => absurd ⟨by simp, by simpa using hs.once⟩ h⟩
  | l :: ls, [], done, s, hs, hl, _, _ => by simp at hl
  | l :: ls, t :: ts, done, s, hs, hl, hr, hh => by
    have hr0 : l.Reads t := hr 0 l t rfl rfl
    have hr' : ∀ (i : Nat) (l : CoordLine) (t : List Char), ls[i]? = some l → ts[i]? = some t → l.Reads t :=
      fun i l' t' h1 h2 => hr (i + 1) l' t' (by simpa using h1) (by simpa using h2)
    have hh' : ∀ l' ∈ ls, ∀ n', l' ≠ .header n' := fun l' h => hh l' (List.mem_cons_of_mem _ h)
    have hl' : ts.length = ls.length := by simpa using hl
    rw [List.foldlM_cons]
    cases l with
    | comment =>
      rw [coordLine_comment hr0.1, Res.ok_bind]
      exact fold_points hn ls ts done s hs hl' hr' hh'
    | header n' => exact absurd rfl (hh _ (List.mem_cons_self ..) n')
    | point p =>
      have hf : (CoordLine.point p :: ls).filterMap CoordLine.toPoint = p :: ls.filterMap CoordLine.toPoint := rfl
      rw [hf]
      obtain ⟨hgood, hbad⟩ := coordLine_point (zero := zero) hn hs hr0
      by_cases hp : PointOk n p ∧ p.node ∉ done.map CoordPoint.node
      · obtain ⟨s1, e1, h1⟩ := hgood hp
        have ih := fold_points hn ls ts _ s1 h1 hl' hr' hh'
        rw [e1, Res.ok_bind, show done ++ p :: ls.filterMap CoordLine.toPoint = done ++ [p] ++ ls.filterMap CoordLine.toPoint by simp]
        refine ⟨fun ⟨h2, h3⟩ => ih.1 ⟨fun q hq => h2 q (List.mem_cons_of_mem _ hq), h3⟩, fun hc => ih.2 fun ⟨h2, h3⟩ => hc ⟨?_, h3⟩⟩
        intro q hq
        rcases List.mem_cons.1 hq with rfl | hq
        · exact hp.1
        · exact h2 q hq
      · rw [hbad hp]
        refine ⟨fun ⟨h2, h3⟩ => absurd ⟨h2 p (List.mem_cons_self ..), ?_⟩ hp, fun _ => rfl⟩
        intro hm
        rw [List.map_append, List.nodup_append] at h3
        exact h3.2.2 _ hm _ (by simp) rfl

theorem fold_coord_comments : ∀ {before rest : List CoordLine} {ts : List (List Char)} {s : CoordState α}, (∀ l ∈ before, l = .comment) →
    ts.length = (before ++ rest).length → (∀ (i : Nat) (l : CoordLine) (t : List Char), (before ++ rest)[i]? = some l → ts[i]? = some t → l.Reads t) →
    ∃ ts' : List (List Char), ts'.length = rest.length ∧ (∀ (i : Nat) (l : CoordLine) (t : List Char), rest[i]? = some l → ts'[i]? = some t → l.Reads t) ∧
      ts.foldlM (coordLine conv zero) s = ts'.foldlM (coordLine conv zero) s
  | [], rest, ts, s, _, hl, hr => ⟨ts, by simpa using hl, by simpa using hr, rfl⟩
  | l :: before, rest, [], s, _, hl, _ => by simp at hl
  | l :: before, rest, t :: ts, s, hb, hl, hr => by
    have h0 : l.Reads t := hr 0 l t rfl rfl
    rw [hb l (by simp)] at h0
    obtain ⟨ts', h1, h2, h3⟩ := fold_coord_comments (before := before) (rest := rest) (ts := ts) (s := s) (fun l' h => hb l' (by simp [h]))
      (by simpa using hl) (fun i l' t' g1 g2 => hr (i + 1) l' t' (by simpa using g1) (by simpa using g2))
    exact ⟨ts', h1, h2, by rw [List.foldlM_cons, coordLine_comment h0.1, Res.ok_bind, h3]⟩

theorem coordFinish_spec {n : Nat} {done : List CoordPoint} {s : CoordState α} (hs : CoordInv conv n done s) :
    ((∀ j < n, j + 1 ∈ done.map CoordPoint.node) → coordFinish s = .ok (s.longitude, s.latitude)) ∧
    (¬ (∀ j < n, j + 1 ∈ done.map CoordPoint.node) → coordFinish s = .error) := by
  obtain ⟨b, e, hb⟩ := forRange_inv (lo := 0) (hi := n) (s := true) (f := fun ok i => do
      let b ← rd s.seen i
      some (ok && b)) (fun i ok => ok = true ↔ ∀ j < i, j + 1 ∈ done.map CoordPoint.node) (Nat.zero_le _) (by simp) (by
    intro i ok _ hi hp
    refine ⟨ok && decide (i + 1 ∈ done.map CoordPoint.node), by simp [hs.seen i hi], ?_⟩
    rw [Bool.and_eq_true, hp, decide_eq_true_eq]
    constructor
    · rintro ⟨h1, h2⟩ j hj
      by_cases hji : j = i
      · rw [hji]; exact h2
      · exact h1 j (by omega)
    · intro h
      exact ⟨fun j hj => h j (by omega), h i (by omega)⟩)
  unfold coordFinish
  rw [hs.count]
  simp only [e, Res.ofOption_some, Res.ok_bind]
  constructor
  · intro h
    rw [hb.2 h, Res.require_true, Res.ok_bind]
  · intro h
    have : b = false := by
      cases b with
      | true => exact absurd (hb.1 rfl) h
      | false => rfl
    rw [this, Res.require_false, Res.error_bind]

/-- The result for a coordinate file. -/
theorem convertCoordinates_file {n : Nat} {points : List CoordPoint} {text : List Char} (h : IsCoordFile n points text) :
    (n < u32 ∧ CoordsComplete n points → ∃ lon lat, convertCoordinates conv zero text = .ok (lon, lat) ∧ lon.length = n ∧ lat.length = n ∧
      ∀ p ∈ points, lon[p.node - 1]? = some (conv p.lon) ∧ lat[p.node - 1]? = some (conv p.lat)) ∧
    (¬ (n < u32 ∧ CoordsComplete n points) → convertCoordinates conv zero text = .error) := by
  obtain ⟨before, after, hf, hb, ha, rfl⟩ := h
  obtain ⟨ts, h1, h2, h3⟩ := coordFile_lines (conv := conv) (zero := zero) hf ⟨none, [], [], []⟩
  obtain ⟨ts', g1, g2, g3⟩ := fold_coord_comments (conv := conv) (zero := zero) (s := ⟨none, [], [], []⟩) hb h1 h2
  cases ts' with
  | nil => simp at g1
  | cons t ts' =>
    have hr : (CoordLine.header n).Reads t := g2 0 _ _ rfl rfl
    have key : convertCoordinates conv zero text =
        (ts'.foldlM (coordLine conv zero) (⟨some n, List.replicate n zero, List.replicate n zero, List.replicate n false⟩ : CoordState α) >>= coordFinish) ∨
        (¬ n < u32 ∧ convertCoordinates conv zero text = .error) := by
      unfold convertCoordinates
      rw [h3, g3, List.foldlM_cons, coordLine_header rfl hr]
      by_cases hn : n < u32
      · left; rw [if_pos hn, Res.ok_bind]
      · right; rw [if_neg hn]; exact ⟨hn, rfl⟩
    by_cases hn : n < u32
    · have e0 := key.resolve_right fun h => h.1 hn
      have hinv : CoordInv conv n [] (⟨some n, List.replicate n zero, List.replicate n zero, List.replicate n false⟩ : CoordState α) := by
        refine ⟨rfl, by simp, by simp, by simp, ?_, by simp, by simp, by simp⟩
        intro j hj
        simp [rd, hj]
      obtain ⟨k1, k2⟩ := fold_points (zero := zero) hn after ts' [] _ hinv (by simpa using g1)
        (fun i l t h1 h2 => g2 (i + 1) l t (by simpa using h1) (by simpa using h2)) ha
      rw [e0]
      simp only [List.nil_append] at k1 k2
      by_cases hok : (∀ p ∈ after.filterMap CoordLine.toPoint, PointOk n p) ∧ ((after.filterMap CoordLine.toPoint).map CoordPoint.node).Nodup
      · obtain ⟨s', e1, hs'⟩ := k1 hok
        obtain ⟨f1, f2⟩ := coordFinish_spec hs'
        rw [e1, Res.ok_bind]
        constructor
        · rintro ⟨_, hc⟩
          exact ⟨s'.longitude, s'.latitude, f1 (fun j hj => hc.all (j + 1) (by omega) (by omega)), hs'.lonLen, hs'.latLen, fun p hp => hs'.values p hp⟩
        · intro hc
          apply f2
          intro hall
          apply hc
          refine ⟨hn, fun p hp => ⟨(hok.1 p hp).1, (hok.1 p hp).2.1⟩, fun p hp => (hok.1 p hp).2.2, hok.2, ?_⟩
          intro x hx1 hxn
          have := hall (x - 1) (by omega)
          rwa [show x - 1 + 1 = x by omega] at this
      · rw [k2 hok]
        constructor
        · rintro ⟨_, hc⟩
          exact absurd ⟨fun p hp => ⟨(hc.range p hp).1, (hc.range p hp).2, hc.fits p hp⟩, hc.once⟩ hok
        · intro _; rfl
    · refine ⟨fun h => absurd h.1 hn, fun _ => ?_⟩
      rcases key with e0 | e0
      · -- the header alone is rejected
        unfold convertCoordinates
        rw [h3, g3, List.foldlM_cons, coordLine_header rfl hr, if_neg hn]
        rfl
      · exact e0.2

/-! ### Arbitrary texts -/

/-- Sizes fit together. -/
def CoordSized (s : CoordState α) : Prop :=
  ∀ n, s.nodeCount = some n → n < u32 ∧ s.seen.length = n ∧ s.longitude.length = n ∧ s.latitude.length = n

theorem coordHeaderFields_lt {t : Text} {n : Nat} (h : coordHeaderFields t = some n) : n < u32 := by
  unfold coordHeaderFields at h
  simp only [Option.bind_eq_bind, Option.bind_eq_some_iff] at h
  obtain ⟨_, _, _, _, _, _, _, _, _, _, _, _, _, _, _, _, ⟨n', r⟩, hu, _, _, he⟩ := h
  injection he with he
  subst he
  exact readUnsigned_lt hu

theorem coordStore_any {s : CoordState α} {n node : Nat} {lon lat : Int} (hs : CoordSized s) (hn : s.nodeCount = some n) :
    coordStore conv s n node lon lat = .error ∨ ∃ s', coordStore conv s n node lon lat = .ok s' ∧ CoordSized s' ∧ s'.nodeCount = some n := by
  obtain ⟨h0, h1, h2, h3⟩ := hs n hn
  unfold coordStore
  by_cases hlt : node < n
  · obtain ⟨b, hb⟩ := rd_isSome (v := s.seen) (i := node) (by omega)
    simp only [decide_eq_true hlt, Res.require_true, Res.ok_bind, hb, Res.ofOption_some]
    cases b with
    | true => exact Or.inl rfl
    | false =>
      right
      rw [wr_lt (by omega), wr_lt (by omega), wr_lt (by omega)]
      refine ⟨_, rfl, ?_, hn⟩
      intro m hm
      simp only [hn, Option.some.injEq] at hm
      subst hm
      simp only [List.length_set]
      exact ⟨h0, h1, h2, h3⟩
  · left
    simp only [decide_eq_false hlt, Res.require_false, Res.error_bind]

theorem coordPoint_any {s : CoordState α} {n : Nat} {t : List Char} (hs : CoordSized s) (hn : s.nodeCount = some n) :
    coordPoint conv s n t = .error ∨ ∃ s', coordPoint conv s n t = .ok s' ∧ CoordSized s' ∧ s'.nodeCount = some n := by
  unfold coordPoint
  split
  · exact Or.inl rfl
  · exact coordStore_any hs hn

theorem coordHeader_any {t : List Char} :
    coordHeader zero t = .error ∨ ∃ s', coordHeader zero t = .ok s' ∧ CoordSized s' ∧ s'.nodeCount ≠ none := by
  unfold coordHeader
  split
  · exact Or.inl rfl
  · rename_i n he
    refine Or.inr ⟨_, rfl, ?_, (by simp)⟩
    intro m hm
    injection hm with hm
    rw [← hm]
    exact ⟨coordHeaderFields_lt he, List.length_replicate, List.length_replicate, List.length_replicate⟩

theorem coordLine_any {s : CoordState α} {t : List Char} (hs : CoordSized s) :
    coordLine conv zero s t = .error ∨ ∃ s', coordLine conv zero s t = .ok s' ∧ CoordSized s' ∧
      (s'.nodeCount = none ↔ s.nodeCount = none ∧ IsCommentText t) := by
  unfold coordLine
  by_cases hc : t = [] ∨ t.head? = some 'c'
  · rw [if_pos hc]
    exact Or.inr ⟨s, rfl, hs, by simp [IsCommentText, hc]⟩
  · rw [if_neg hc]
    cases hn : s.nodeCount with
    | none =>
      rcases coordHeader_any (zero := zero) (t := t) with h | ⟨s', e, h1, h2⟩
      · exact Or.inl h
      · exact Or.inr ⟨s', e, h1, fun h => absurd h h2, fun h => absurd h.2 hc⟩
    | some n =>
      rcases coordPoint_any (conv := conv) (t := t) hs hn with h | ⟨s', e, h1, h2⟩
      · exact Or.inl h
      · refine Or.inr ⟨s', e, h1, fun h => ?_, fun h => absurd h.2 hc⟩
        rw [h2] at h; cases h

theorem fold_any : ∀ {ts : List (List Char)} {s : CoordState α}, CoordSized s →
    ts.foldlM (coordLine conv zero) s = .error ∨ ∃ s', ts.foldlM (coordLine conv zero) s = .ok s' ∧ CoordSized s' ∧
      (s'.nodeCount = none ↔ s.nodeCount = none ∧ ∀ t ∈ ts, IsCommentText t)
  | [], s, hs => Or.inr ⟨s, rfl, hs, by simp⟩
  | t :: ts, s, hs => by
    rw [List.foldlM_cons]
    rcases coordLine_any (conv := conv) (zero := zero) (t := t) hs with e | ⟨s1, e, h1, h2⟩
    · rw [e]; exact Or.inl rfl
    · rw [e, Res.ok_bind]
      rcases fold_any (ts := ts) h1 with e2 | ⟨s2, e2, h3, h4⟩
      · exact Or.inl e2
      · refine Or.inr ⟨s2, e2, h3, ?_⟩
        rw [h4, h2]
        simp only [List.mem_cons, forall_eq_or_imp]
        tauto

theorem convertCoordinates_any (text : List Char) :
    ((∀ t ∈ getLines text, IsCommentText t) ∧ convertCoordinates conv zero text = .ub) ∨
    (¬ (∀ t ∈ getLines text, IsCommentText t) ∧ (convertCoordinates conv zero text = .error ∨
      ∃ lon lat, convertCoordinates conv zero text = .ok (lon, lat) ∧ lon.length = lat.length ∧ lon.length < u32)) := by
  unfold convertCoordinates
  have h0 : CoordSized (⟨none, [], [], []⟩ : CoordState α) := by intro n hn; cases hn
  rcases fold_any (conv := conv) (zero := zero) (ts := getLines text) h0 with e | ⟨s, e, h1, h2⟩
  · rw [e]
    right
    refine ⟨fun hall => ?_, Or.inl rfl⟩
    have : ∀ (ts : List (List Char)) (s : CoordState α), (∀ t ∈ ts, IsCommentText t) → ts.foldlM (coordLine conv zero) s = .ok s := by
      intro ts
      induction ts with
      | nil => intro s _; rfl
      | cons t ts ih =>
        intro s h
        rw [List.foldlM_cons, coordLine_comment (h t (by simp)), Res.ok_bind, ih s fun t' h' => h t' (by simp [h'])]
    rw [this _ _ hall] at e
    cases e
  · rw [e, Res.ok_bind]
    cases hn : s.nodeCount with
    | none =>
      left
      refine ⟨(h2.1 hn).2, ?_⟩
      unfold coordFinish
      rw [hn]
    | some n =>
      right
      obtain ⟨g0, g1, g2, g3⟩ := h1 n hn
      refine ⟨fun hall => ?_, ?_⟩
      · have := h2.2 ⟨rfl, hall⟩
        rw [hn] at this; cases this
      · unfold coordFinish
        rw [hn]
        obtain ⟨b, eb, _⟩ := forRange_inv (lo := 0) (hi := n) (s := true) (f := fun ok i => do
            let b ← rd s.seen i
            some (ok && b)) (fun _ _ => True) (Nat.zero_le _) trivial (by
          intro i ok _ hi _
          obtain ⟨b, hb⟩ := rd_isSome (v := s.seen) (i := i) (by omega)
          exact ⟨ok && b, by simp [hb], trivial⟩)
        simp only [eb, Res.ofOption_some, Res.ok_bind]
        cases b with
        | true => exact Or.inr ⟨_, _, rfl, by omega, by omega⟩
        | false => exact Or.inl rfl

end
end RK
