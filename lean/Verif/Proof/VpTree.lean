import Verif.Model.VpTree
import Mathlib.Algebra.Order.Group.Basic
import Mathlib.Tactic.Linarith
import Mathlib.Tactic.Abel
/-! # Vantage point trees -/
namespace RK

variable {P D : Type} [AddCommGroup D] [LinearOrder D]

/-- What the standard says about `std::nth_element`: the elements are permuted, those before position `k` are not larger
and those behind it are not smaller than the one at position `k`. -/
def NthElementOk (nth : Nat → Nat → List (PointData P D) → Nat → List (PointData P D)) : Prop :=
  ∀ b e l k, k < l.length → (nth b e l k).Perm l ∧ ∀ x, (nth b e l k)[k]? = some x →
    (∀ y ∈ (nth b e l k).take k, ¬ x.distanceToPivot < y.distanceToPivot) ∧
    (∀ y ∈ (nth b e l k).drop k, ¬ y.distanceToPivot < x.distanceToPivot)

/-- A metric. -/
structure IsMetric (dist : P → P → D) : Prop where
  self : ∀ x, dist x x = 0
  nonneg : ∀ x y, 0 ≤ dist x y
  symm : ∀ x y, dist x y = dist y x
  triangle : ∀ x y z, dist x z ≤ dist x y + dist y z

/-- The order of the points in a range is that of a vantage point tree. -/
inductive TreeL (dist : P → P → D) : List P → Prop
  | leaf {l : List P} : l.length ≤ 8 → TreeL dist l
  | node {l : List P} {pv mp : P} : 8 < l.length → l.head? = some pv → l[l.length / 2]? = some mp →
      (∀ x ∈ l.take (l.length / 2), dist pv x ≤ dist pv mp) → (∀ x ∈ l.drop (l.length / 2), dist pv mp ≤ dist pv x) →
      TreeL dist (l.take (l.length / 2)) → TreeL dist (l.drop (l.length / 2)) → TreeL dist l

/-- The same with positions in a vector. -/
inductive VpTree (dist : P → P → D) (pos : List P) : Nat → Nat → Prop
  | leaf {b e : Nat} : e - b ≤ 8 → VpTree dist pos b e
  | node {b e : Nat} {pv mp : P} : 8 < e - b → rd pos b = some pv → rd pos (b + (e - b) / 2) = some mp →
      (∀ i x, b ≤ i → i < b + (e - b) / 2 → rd pos i = some x → dist pv x ≤ dist pv mp) →
      (∀ i x, b + (e - b) / 2 ≤ i → i < e → rd pos i = some x → dist pv mp ≤ dist pv x) →
      VpTree dist pos b (b + (e - b) / 2) → VpTree dist pos (b + (e - b) / 2) e → VpTree dist pos b e

theorem rd_mid {α : Type} {A l C : List α} {i : Nat} (hi : i < l.length) : rd (A ++ l ++ C) (A.length + i) = l[i]? := by
  unfold rd
  rw [List.getElem?_append_left (by rw [List.length_append]; omega), List.getElem?_append_right (by omega)]
  congr 1; omega

theorem TreeL.vp {dist : P → P → D} {l : List P} (h : TreeL dist l) : ∀ (A C : List P),
    VpTree dist (A ++ l ++ C) A.length (A.length + l.length) := by
  induction h with
  | leaf h => intro A C; exact .leaf (by omega)
  | @node l pv mp h1 h2 h3 h4 h5 _ _ ih1 ih2 =>
    intro A C
    have hm : A.length + (A.length + l.length - A.length) / 2 = A.length + l.length / 2 := by omega
    have hlt : l.length / 2 < l.length := by omega
    refine .node (pv := pv) (mp := mp) (by omega) ?_ ?_ ?_ ?_ ?_ ?_
    · have := rd_mid (A := A) (C := C) (l := l) (i := 0) (by omega)
      rw [Nat.add_zero] at this
      rw [this, ← h2, List.head?_eq_getElem?]
    · rw [hm, rd_mid hlt]; exact h3
    · intro i x hi1 hi2 hx
      rw [hm] at hi2
      obtain ⟨k, rfl⟩ := Nat.exists_eq_add_of_le hi1
      rw [rd_mid (by omega)] at hx
      refine h4 x ?_
      refine List.mem_of_getElem? (i := k) ?_
      rw [List.getElem?_take, if_pos (by omega)]; exact hx
    · intro i x hi1 hi2 hx
      rw [hm] at hi1
      obtain ⟨k, rfl⟩ := Nat.exists_eq_add_of_le hi1
      rw [Nat.add_assoc, rd_mid (by omega)] at hx
      refine h5 x ?_
      refine List.mem_of_getElem? (i := k) ?_
      rw [List.getElem?_drop]; exact hx
    · have := ih1 A (l.drop (l.length / 2) ++ C)
      rw [hm]
      rw [← List.append_assoc, List.append_assoc A, List.take_append_drop] at this
      rw [List.length_take, Nat.min_eq_left (by omega)] at this
      exact this
    · have := ih2 (A ++ l.take (l.length / 2)) C
      rw [hm]
      rw [List.append_assoc A, List.take_append_drop] at this
      rw [List.length_append, List.length_take, List.length_drop, Nat.min_eq_left (by omega),
        show A.length + l.length / 2 + (l.length - l.length / 2) = A.length + l.length by omega] at this
      exact this

/-! ### Construction -/

/-- Position and id. -/
def PointData.key (x : PointData P D) : P × Nat := (x.position, x.id)

variable {dist : P → P → D}

omit [AddCommGroup D] [LinearOrder D] in
theorem redistance_spec {pv : P} : ∀ (l : List (PointData P D)) (A C : List (PointData P D)),
    forRange A.length (A.length + l.length) (A ++ l ++ C) (fun d i => do
        let x ← rd d i
        wr d i { x with distanceToPivot := dist pv x.position }) =
      some (A ++ l.map (fun x => { x with distanceToPivot := dist pv x.position }) ++ C)
  | [], A, C => by
    unfold forRange; rw [show A.length + ([] : List (PointData P D)).length - A.length = 0 by simp]; simp [forN]
  | x :: l, A, C => by
    have ih := redistance_spec (pv := pv) l (A ++ [{ x with distanceToPivot := dist pv x.position }]) C
    unfold forRange at ih ⊢
    rw [show A.length + (x :: l).length - A.length = l.length + 1 by simp]
    rw [List.length_append, List.length_singleton, show A.length + 1 + l.length - (A.length + 1) = l.length by omega] at ih
    unfold forN
    have h1 : rd (A ++ x :: l ++ C) A.length = some x := by
      have := rd_mid (A := A) (C := C) (l := x :: l) (i := 0) (by simp)
      rw [Nat.add_zero] at this; rw [this]; rfl
    have h2 : wr (A ++ x :: l ++ C) A.length { x with distanceToPivot := dist pv x.position } =
        some (A ++ [{ x with distanceToPivot := dist pv x.position }] ++ l ++ C) := by
      unfold wr
      rw [if_pos (by simp)]
      simp
    simp only [Option.bind_eq_bind] at ih
    simp only [h1, h2, Option.bind_eq_bind, Option.bind_some]
    rw [ih]
    simp

theorem TreeL.of_length {l : List P} (h : l.length ≤ 8) : TreeL dist l := .leaf h

theorem constructTree_spec {nth : Nat → Nat → List (PointData P D) → Nat → List (PointData P D)} (hn : NthElementOk nth)
    (hd : IsMetric dist) : ∀ (fuel : Nat) (A seg C : List (PointData P D)), seg.length < fuel →
    (∀ pv, seg.head? = some pv → ∀ x ∈ seg, x.distanceToPivot = dist pv.position x.position) →
    ∃ seg', constructTree dist nth fuel (A ++ seg ++ C) A.length (A.length + seg.length) = some (A ++ seg' ++ C) ∧
      (seg'.map PointData.key).Perm (seg.map PointData.key) ∧ seg'.head?.map PointData.key = seg.head?.map PointData.key ∧
      TreeL dist (seg'.map (·.position)) := by
  intro fuel
  induction fuel with
  | zero => intro A seg C h; omega
  | succ fuel ih =>
    intro A seg C hf hp
    unfold constructTree
    by_cases h8 : A.length + seg.length - A.length > maxPointsPerLeaf
    · rw [if_pos h8]
      have h8' : 8 < seg.length := by unfold maxPointsPerLeaf at h8; omega
      match seg, h8', hf, hp with
      | [], h8', _, _ => exact absurd h8' (by simp)
      | pv :: rest, h8', hf, hp =>
        rw [List.length_cons] at h8' hf
        have hmid : A.length + (A.length + (rest.length + 1) - A.length) / 2 = A.length + (rest.length + 1) / 2 := by
          congr 1; congr 1; omega
        simp only [List.length_cons, hmid]
        generalize hm : (rest.length + 1) / 2 = m
        have hm1 : 1 ≤ m := by omega
        have hm2 : m - 1 < rest.length := by omega
        -- nth_element
        obtain ⟨hperm, hsplit⟩ := hn (A.length + 1) (A.length + (rest.length + 1)) rest (m - 1) hm2
        generalize hr : nth (A.length + 1) (A.length + (rest.length + 1)) rest (m - 1) = r at hperm hsplit
        have hrl := hperm.length_eq
        have hnth : nthElement nth (A ++ pv :: rest ++ C) (A.length + 1) (A.length + m) (A.length + (rest.length + 1)) =
            some (A ++ pv :: r ++ C) := by
          unfold nthElement
          rw [if_pos ⟨by omega, by omega, by simp⟩]
          have e1 : (A ++ pv :: rest ++ C).take (A.length + 1) = A ++ [pv] := by
            rw [show A ++ pv :: rest ++ C = (A ++ [pv]) ++ (rest ++ C) by simp]
            exact List.take_left' (by simp)
          have e2 : ((A ++ pv :: rest ++ C).drop (A.length + 1)).take (A.length + (rest.length + 1) - (A.length + 1)) = rest := by
            rw [show A ++ pv :: rest ++ C = (A ++ [pv]) ++ (rest ++ C) by simp, List.drop_left' (by simp)]
            exact List.take_left' (by omega)
          have e3 : (A ++ pv :: rest ++ C).drop (A.length + (rest.length + 1)) = C := List.drop_left' (by simp)
          rw [e1, e2, e3, show A.length + m - (A.length + 1) = m - 1 by omega, hr]
          simp
        rw [hnth]
        simp only [Option.bind_eq_bind, Option.bind_some]
        -- the element in the middle
        obtain ⟨x0, hx0⟩ : ∃ x0, r[m - 1]? = some x0 := ⟨_, List.getElem?_eq_getElem (by omega)⟩
        obtain ⟨s1, s2⟩ := hsplit x0 hx0
        have hdist : ∀ y ∈ r, y.distanceToPivot = dist pv.position y.position := fun y hy =>
          hp pv rfl y (List.mem_cons_of_mem _ (hperm.mem_iff.1 hy))
        -- left half
        have hsplitL : A ++ pv :: r ++ C = A ++ (pv :: r.take (m - 1)) ++ (r.drop (m - 1) ++ C) := by
          rw [List.append_assoc, List.append_assoc, List.cons_append, List.cons_append, ← List.append_assoc (r.take (m - 1)),
            List.take_append_drop]
        have hLl : (pv :: r.take (m - 1)).length = m := by rw [List.length_cons, List.length_take]; omega
        obtain ⟨L, eL, pL, hL, tL⟩ := ih A (pv :: r.take (m - 1)) (r.drop (m - 1) ++ C) (by rw [hLl]; omega) (by
          intro p e x hx
          simp only [List.head?_cons, Option.some.injEq] at e
          subst e
          rcases List.mem_cons.1 hx with rfl | hx
          · exact hp x rfl x List.mem_cons_self
          · exact hdist x (List.mem_of_mem_take hx))
        rw [hLl, ← hsplitL] at eL
        rw [eL]
        simp only [Option.bind_some]
        have hLlen : L.length = m := by
          have := pL.length_eq
          rw [List.length_map, List.length_map, hLl] at this; exact this
        -- distances of the right half
        have hdr : r.drop (m - 1) = x0 :: r.drop m := by
          rw [List.drop_eq_getElem_cons (by omega), show m - 1 + 1 = m by omega]
          rw [List.getElem?_eq_getElem (by omega)] at hx0
          injection hx0 with hx0
          rw [hx0]
        have hDl : (r.drop (m - 1)).length = rest.length + 1 - m := by rw [List.length_drop]; omega
        have hre := redistance_spec (dist := dist) (pv := x0.position) (r.drop (m - 1)) (A ++ L) C
        rw [List.length_append, hLlen, hDl, show A.length + m + (rest.length + 1 - m) = A.length + (rest.length + 1) by omega] at hre
        have hrd : rd (A ++ L ++ (r.drop (m - 1) ++ C)) (A.length + m) = some x0 := by
          have := rd_mid (A := A ++ L) (l := r.drop (m - 1)) (C := C) (i := 0) (by omega)
          rw [List.length_append, hLlen, Nat.add_zero, List.append_assoc (A ++ L)] at this
          rw [this, hdr]; rfl
        rw [hrd]
        simp only [Option.bind_some]
        rw [List.append_assoc (A ++ L)] at hre
        simp only [Option.bind_eq_bind] at hre
        rw [hre]
        simp only [Option.bind_some]
        -- right half
        generalize hR0 : (r.drop (m - 1)).map (fun x => { x with distanceToPivot := dist x0.position x.position }) = R0
        have hR0l : R0.length = rest.length + 1 - m := by rw [← hR0, List.length_map, hDl]
        have hR0k : R0.map PointData.key = (r.drop (m - 1)).map PointData.key := by
          rw [← hR0, List.map_map]; rfl
        obtain ⟨R, eR, pR, hR, tR⟩ := ih (A ++ L) R0 C (by rw [hR0l]; omega) (by
          intro p e x hx
          rw [← hR0, hdr, List.map_cons, List.head?_cons] at e
          injection e with e
          rw [← hR0] at hx
          obtain ⟨y, _, rfl⟩ := List.mem_map.1 hx
          rw [← e])
        rw [List.length_append, hLlen, hR0l, show A.length + m + (rest.length + 1 - m) = A.length + (rest.length + 1) by omega] at eR
        refine ⟨L ++ R, ?_, ?_, ?_, ?_⟩
        · rw [eR]; simp
        · rw [List.map_append]
          refine (List.Perm.append pL (pR.trans (by rw [hR0k]))).trans ?_
          rw [← List.map_append, List.cons_append, List.take_append_drop]
          exact (hperm.cons pv).map _
        · cases L with
          | nil => simp at hLlen; omega
          | cons a L => simpa using hL
        · have hlp : ∀ y ∈ L.map (·.position), y ∈ (pv :: r.take (m - 1)).map (·.position) := by
            intro y hy
            obtain ⟨z, hz, rfl⟩ := List.mem_map.1 hy
            have := pL.mem_iff.1 (List.mem_map_of_mem (f := PointData.key) hz)
            obtain ⟨w, hw, ew⟩ := List.mem_map.1 this
            exact List.mem_map.2 ⟨w, hw, congrArg Prod.fst ew⟩
          have hrp : ∀ y ∈ R.map (·.position), y ∈ (r.drop (m - 1)).map (·.position) := by
            intro y hy
            obtain ⟨z, hz, rfl⟩ := List.mem_map.1 hy
            have := pR.mem_iff.1 (List.mem_map_of_mem (f := PointData.key) hz)
            rw [hR0k] at this
            obtain ⟨w, hw, ew⟩ := List.mem_map.1 this
            exact List.mem_map.2 ⟨w, hw, congrArg Prod.fst ew⟩
          have hRl : R.length = rest.length + 1 - m := by
            have := pR.length_eq
            rw [List.length_map, List.length_map, hR0l] at this; exact this
          have hhead : (L ++ R).head?.map PointData.key = some pv.key := by
            cases L with
            | nil => simp at hLlen; omega
            | cons a L => simpa using hL
          have hmidR : R.head?.map PointData.key = some x0.key := by
            rw [hR, ← List.head?_map, hR0k, hdr]; rfl
          have hlen : ((L ++ R).map (·.position)).length / 2 = m := by
            rw [List.length_map, List.length_append, hLlen, hRl]; omega
          have htk : ((L ++ R).map (·.position)).take m = L.map (·.position) := by
            rw [List.map_append]; exact List.take_left' (by simpa using hLlen)
          have hdp : ((L ++ R).map (·.position)).drop m = R.map (·.position) := by
            rw [List.map_append]; exact List.drop_left' (by simpa using hLlen)
          have hx0r : x0 ∈ r := List.mem_of_getElem? hx0
          refine .node (pv := pv.position) (mp := x0.position) ?_ ?_ ?_ ?_ ?_ ?_ ?_
          · rw [List.length_map, List.length_append, hLlen, hRl]; omega
          · rw [List.head?_map]
            cases e : (L ++ R).head? with
            | none => rw [e] at hhead; cases hhead
            | some a =>
              rw [e] at hhead
              injection hhead with hhead
              exact congrArg some (congrArg Prod.fst hhead)
          · rw [hlen, List.map_append, List.getElem?_append_right (by simp [hLlen]), List.length_map, hLlen, Nat.sub_self,
              ← List.head?_eq_getElem?, List.head?_map]
            cases e : R.head? with
            | none => rw [e] at hmidR; cases hmidR
            | some a =>
              rw [e] at hmidR
              injection hmidR with hmidR
              exact congrArg some (congrArg Prod.fst hmidR)
          · rw [hlen, htk]
            intro y hy
            obtain ⟨z, hz, rfl⟩ := List.mem_map.1 (hlp y hy)
            rcases List.mem_cons.1 hz with rfl | hz
            · rw [hd.self]; exact hd.nonneg _ _
            · have := s1 z hz
              rw [hdist z (List.mem_of_mem_take hz), hdist x0 hx0r] at this
              exact not_lt.1 this
          · rw [hlen, hdp]
            intro y hy
            obtain ⟨z, hz, rfl⟩ := List.mem_map.1 (hrp y hy)
            have := s2 z hz
            rw [hdist z (List.mem_of_mem_drop hz), hdist x0 hx0r] at this
            exact not_lt.1 this
          · rw [hlen, htk]; exact tL
          · rw [hlen, hdp]; exact tR
    · rw [if_neg h8]
      refine ⟨seg, rfl, List.Perm.refl _, rfl, .leaf ?_⟩
      unfold maxPointsPerLeaf at h8
      rw [List.length_map]; omega

/-- The index contains the points, and they are in the order of a tree. -/
structure GeoIndex.Ok (dist : P → P → D) (points : List P) (g : GeoIndex P) : Prop where
  length : g.position.length = g.id.length
  perm : (List.zip g.position g.id).Perm points.zipIdx
  tree : VpTree dist g.position 0 g.position.length

theorem geoBuild_ok {nth : Nat → Nat → List (PointData P D) → Nat → List (PointData P D)} (hn : NthElementOk nth) (hd : IsMetric dist)
    (points : List P) : ∃ g, GeoIndex.build dist nth points = some g ∧ g.Ok dist points := by
  unfold GeoIndex.build
  generalize hdata : points.zipIdx.filterMap (fun x => points.head?.map (fun p0 => (⟨x.1, x.2, dist p0 x.1⟩ : PointData P D))) = data
  have hk : data.map PointData.key = points.zipIdx := by
    rw [← hdata]
    cases points with
    | nil => rfl
    | cons p points =>
      simp only [List.head?_cons, Option.map_some]
      rw [List.map_filterMap]
      simp [PointData.key]
  have hl : data.length = points.length := by
    have := congrArg List.length hk
    rw [List.length_map, List.length_zipIdx] at this; exact this
  obtain ⟨d', e1, p1, -, t1⟩ := constructTree_spec hn hd (points.length + 1) [] data [] (by omega) (by
    intro pv e x hx
    cases points with
    | nil => simp at hdata; subst hdata; simp at hx
    | cons p points =>
      have hh : pv.key = (p, 0) := by
        have := congrArg List.head? hk
        rw [List.head?_map, e] at this
        simpa using this
      have hpos : pv.position = p := congrArg Prod.fst hh
      rw [← hdata] at hx
      obtain ⟨y, _, ey⟩ := List.mem_filterMap.1 hx
      simp only [List.head?_cons, Option.map_some, Option.some.injEq] at ey
      rw [← ey, hpos])
  simp only [List.length_nil, Nat.zero_add, List.nil_append, List.append_nil, hl] at e1
  simp only [e1, Option.bind_eq_bind, Option.bind_some]
  refine ⟨_, rfl, by simp, ?_, ?_⟩
  · have : List.zip (d'.map (·.position)) (d'.map (·.id)) = d'.map PointData.key := by
      rw [List.zip_map']; rfl
    show (List.zip (d'.map (·.position)) (d'.map (·.id))).Perm _
    rw [this, ← hk]; exact p1
  · have := t1.vp [] []
    simpa using this

/-! ### Queries -/

variable [IsOrderedAddMonoid D]

theorem pruned_right (hd : IsMetric dist) {pv q x mp : P} (h : dist pv mp ≤ dist pv x) : dist pv mp - dist pv q ≤ dist q x := by
  have := hd.triangle pv q x
  rw [sub_le_iff_le_add', add_comm]
  exact (h.trans this).trans_eq (add_comm _ _)

theorem pruned_left (hd : IsMetric dist) {pv q x mp : P} (h : dist pv x ≤ dist pv mp) : dist pv q - dist pv mp ≤ dist q x := by
  have := hd.triangle pv x q
  rw [hd.symm x q] at this
  rw [sub_le_iff_le_add']
  exact this.trans (add_le_add_left h _)

/-- The outcome of the recursion on the range `[b, e)`. -/
structure Near (dist : P → P → D) (g : GeoIndex P) (q : P) (b e : Nat) (cur r : GeoResult D) : Prop where
  le : r.distance ≤ cur.distance
  src : r = cur ∨ ∃ i x id, b ≤ i ∧ i < e ∧ rd g.position i = some x ∧ rd g.id i = some id ∧ r = ⟨id, dist q x⟩
  all : ∀ i x, b ≤ i → i < e → rd g.position i = some x → r.distance ≤ dist q x

omit [IsOrderedAddMonoid D] in
theorem Near.trans {g : GeoIndex P} {q : P} {b m e : Nat} {c1 c2 c3 : GeoResult D} (h1 : Near dist g q b m c1 c2) (h2 : Near dist g q m e c2 c3)
    (hb : b ≤ m) (he : m ≤ e) : Near dist g q b e c1 c3 := by
  refine ⟨h2.le.trans h1.le, ?_, fun i x hi1 hi2 hx => ?_⟩
  · rcases h2.src with rfl | ⟨i, x, id, h3, h4, h5⟩
    · rcases h1.src with rfl | ⟨i, x, id, h3, h4, h5⟩
      · exact Or.inl rfl
      · exact Or.inr ⟨i, x, id, h3, by omega, h5⟩
    · exact Or.inr ⟨i, x, id, by omega, h4, h5⟩
  · by_cases hm : i < m
    · exact h2.le.trans (h1.all i x hi1 hm hx)
    · exact h2.all i x (by omega) hi2 hx

omit [IsOrderedAddMonoid D] in
theorem Near.trans' {g : GeoIndex P} {q : P} {b m e : Nat} {c1 c2 c3 : GeoResult D} (h1 : Near dist g q m e c1 c2) (h2 : Near dist g q b m c2 c3)
    (hb : b ≤ m) (he : m ≤ e) : Near dist g q b e c1 c3 := by
  refine ⟨h2.le.trans h1.le, ?_, fun i x hi1 hi2 hx => ?_⟩
  · rcases h2.src with rfl | ⟨i, x, id, h3, h4, h5⟩
    · rcases h1.src with rfl | ⟨i, x, id, h3, h4, h5⟩
      · exact Or.inl rfl
      · exact Or.inr ⟨i, x, id, by omega, by omega, h5⟩
    · exact Or.inr ⟨i, x, id, by omega, by omega, h5⟩
  · by_cases hm : i < m
    · exact h2.all i x hi1 hm hx
    · exact h2.le.trans (h1.all i x (by omega) hi2 hx)

omit [IsOrderedAddMonoid D] in
theorem Near.skip {g : GeoIndex P} {q : P} {b e : Nat} {c : GeoResult D}
    (h : ∀ i x, b ≤ i → i < e → rd g.position i = some x → c.distance ≤ dist q x) : Near dist g q b e c c := ⟨le_refl _, Or.inl rfl, h⟩

theorem nearestRec_spec (hd : IsMetric dist) {g : GeoIndex P} (hl : g.position.length = g.id.length) (q : P) {b e : Nat}
    (ht : VpTree dist g.position b e) : ∀ (fuel : Nat) (cur : GeoResult D), b ≤ e → e ≤ g.position.length → e - b < fuel →
    ∃ r, nearestRec dist g q fuel b e cur = some r ∧ Near dist g q b e cur r := by
  induction ht with
  | @leaf b e h8 =>
    intro fuel cur hbe he hf
    obtain ⟨fuel, rfl⟩ : ∃ k, fuel = k + 1 := ⟨fuel - 1, by omega⟩
    unfold nearestRec
    rw [if_pos (by unfold maxPointsPerLeaf; omega)]
    refine forRange_inv (fun i r => Near dist g q b i cur r) hbe ⟨le_refl _, Or.inl rfl, fun i x h1 h2 => by omega⟩ ?_
    intro i r hi1 hi2 hr
    obtain ⟨x, hx⟩ := rd_isSome (v := g.position) (i := i) (by omega)
    obtain ⟨id, hid⟩ := rd_isSome (v := g.id) (i := i) (by omega)
    simp only [hx, Option.bind_eq_bind, Option.bind_some]
    by_cases hc : dist q x ≤ r.distance
    · rw [if_pos hc, hid]
      refine ⟨_, rfl, hr.trans (m := i) ⟨hc, Or.inr ⟨i, x, id, Nat.le_refl _, by omega, hx, hid, rfl⟩, ?_⟩ hi1 (by omega)⟩
      intro j y h1 h2 hy
      rw [show j = i by omega, hx] at hy
      injection hy with hy
      rw [← hy]
    · rw [if_neg hc]
      refine ⟨_, rfl, hr.trans (m := i) (.skip ?_) hi1 (by omega)⟩
      intro j y h1 h2 hy
      rw [show j = i by omega, hx] at hy
      injection hy with hy
      rw [← hy]
      exact le_of_lt (not_le.1 hc)
  | @node b e pv mp h8 hpv hmp hle hge _ _ ih1 ih2 =>
    intro fuel cur hbe he hf
    obtain ⟨fuel, rfl⟩ : ∃ k, fuel = k + 1 := ⟨fuel - 1, by omega⟩
    unfold nearestRec
    rw [if_neg (by unfold maxPointsPerLeaf; omega)]
    simp only [hpv, hmp, Option.bind_eq_bind, Option.bind_some]
    generalize hmid : b + (e - b) / 2 = mid at *
    by_cases hc : dist pv q ≥ dist pv mp
    · rw [if_pos hc]
      obtain ⟨r1, e1, n1⟩ := ih2 fuel cur (by omega) he (by omega)
      simp only [e1, Option.bind_some]
      by_cases hp : dist pv q - dist pv mp < r1.distance
      · rw [if_pos hp]
        obtain ⟨r2, e2, n2⟩ := ih1 fuel r1 (by omega) (by omega) (by omega)
        exact ⟨r2, e2, n1.trans' n2 (by omega) (by omega)⟩
      · rw [if_neg hp]
        refine ⟨r1, rfl, n1.trans' (.skip ?_) (by omega) (by omega)⟩
        intro i x hi1 hi2 hx
        exact (not_lt.1 hp).trans (pruned_left hd (hle i x hi1 hi2 hx))
    · rw [if_neg hc]
      obtain ⟨r1, e1, n1⟩ := ih1 fuel cur (by omega) (by omega) (by omega)
      simp only [e1, Option.bind_some]
      by_cases hp : dist pv mp - dist pv q < r1.distance
      · rw [if_pos hp]
        obtain ⟨r2, e2, n2⟩ := ih2 fuel r1 (by omega) (by omega) (by omega)
        exact ⟨r2, e2, n1.trans n2 (by omega) (by omega)⟩
      · rw [if_neg hp]
        refine ⟨r1, rfl, n1.trans (.skip ?_) (by omega) (by omega)⟩
        intro i x hi1 hi2 hx
        exact (not_lt.1 hp).trans (pruned_right hd (hge i x hi1 hi2 hx))

/-- The result for one point. -/
def hit (dist : P → P → D) (q : P) (radius : D) (x : P × Nat) : Option (GeoResult D) :=
  if dist q x.1 ≤ radius then some ⟨x.2, dist q x.1⟩ else none

/-- The results in the range `[b, e)`. -/
def hits (dist : P → P → D) (g : GeoIndex P) (q : P) (radius : D) (b e : Nat) : List (GeoResult D) :=
  (((List.zip g.position g.id).drop b).take (e - b)).filterMap (hit dist q radius)

omit [AddCommGroup D] [IsOrderedAddMonoid D] in
theorem hits_append {g : GeoIndex P} {q : P} {radius : D} {b m e : Nat} (h1 : b ≤ m) (h2 : m ≤ e) :
    hits dist g q radius b m ++ hits dist g q radius m e = hits dist g q radius b e := by
  unfold hits
  rw [← List.filterMap_append]
  congr 1
  obtain ⟨k, rfl⟩ := Nat.exists_eq_add_of_le h1
  obtain ⟨j, rfl⟩ := Nat.exists_eq_add_of_le h2
  rw [show b + k - b = k by omega, show b + k + j - (b + k) = j by omega, show b + k + j - b = k + j by omega, List.take_add,
    List.drop_drop]

omit [AddCommGroup D] [IsOrderedAddMonoid D] in
theorem hits_one {g : GeoIndex P} {q : P} {radius : D} {i : Nat} {x : P} {id : Nat} (h1 : rd g.position i = some x) (h2 : rd g.id i = some id) :
    hits dist g q radius i (i + 1) = (hit dist q radius (x, id)).toList := by
  unfold hits
  have : (List.zip g.position g.id)[i]? = some (x, id) := by
    rw [List.getElem?_zip_eq_some]; exact ⟨h1, h2⟩
  obtain ⟨hlt, he⟩ := List.getElem?_eq_some_iff.1 this
  rw [show i + 1 - i = 1 by omega, List.drop_eq_getElem_cons hlt, he]
  simp only [List.take_succ_cons, List.take_zero]
  cases e : hit dist q radius (x, id) <;> simp [e]

omit [AddCommGroup D] [IsOrderedAddMonoid D] in
theorem hits_nil {g : GeoIndex P} {q : P} {radius : D} {b e : Nat}
    (h : ∀ i x, b ≤ i → i < e → rd g.position i = some x → radius < dist q x) : hits dist g q radius b e = [] := by
  unfold hits
  rw [List.filterMap_eq_nil_iff]
  intro x hx
  obtain ⟨i, hi⟩ := List.mem_iff_getElem?.1 hx
  rw [List.getElem?_take] at hi
  split at hi
  · rename_i hlt
    rw [List.getElem?_drop, List.getElem?_zip_eq_some] at hi
    unfold hit
    rw [if_neg (not_le.2 (h _ _ (by omega) (by omega) hi.1))]
  · cases hi

theorem findAllRec_spec (hd : IsMetric dist) {g : GeoIndex P} (hl : g.position.length = g.id.length) (q : P) (radius : D) {b e : Nat}
    (ht : VpTree dist g.position b e) : ∀ (fuel : Nat) (res : List (GeoResult D)), b ≤ e → e ≤ g.position.length → e - b < fuel →
    findAllRec dist g q radius fuel b e res = some (res ++ hits dist g q radius b e) := by
  induction ht with
  | @leaf b e h8 =>
    intro fuel res hbe he hf
    obtain ⟨fuel, rfl⟩ : ∃ k, fuel = k + 1 := ⟨fuel - 1, by omega⟩
    unfold findAllRec
    rw [if_pos (by unfold maxPointsPerLeaf; omega)]
    have key : ∃ r, forRange b e res (fun res i => do
        let x ← rd g.position i
        if dist q x ≤ radius then do
          let id ← rd g.id i
          some (res ++ [⟨id, dist q x⟩])
        else some res) = some r ∧ r = res ++ hits dist g q radius b e := by
      refine forRange_inv (fun i r => r = res ++ hits dist g q radius b i) hbe (by simp [hits]) ?_
      intro i r hi1 hi2 hr
      obtain ⟨x, hx⟩ := rd_isSome (v := g.position) (i := i) (by omega)
      obtain ⟨id, hid⟩ := rd_isSome (v := g.id) (i := i) (by omega)
      have happ := hits_append (dist := dist) (g := g) (q := q) (radius := radius) hi1 (Nat.le_succ i)
      rw [hits_one hx hid] at happ
      simp only [hx, Option.bind_eq_bind, Option.bind_some]
      by_cases hc : dist q x ≤ radius
      · rw [if_pos hc, hid]
        refine ⟨_, rfl, ?_⟩
        rw [← happ, hr]
        simp [hit, hc]
      · rw [if_neg hc]
        refine ⟨_, rfl, ?_⟩
        rw [← happ, hr]
        simp [hit, hc]
    obtain ⟨r, e1, e2⟩ := key
    rw [e1, e2]
  | @node b e pv mp h8 hpv hmp hle hge _ _ ih1 ih2 =>
    intro fuel res hbe he hf
    obtain ⟨fuel, rfl⟩ : ∃ k, fuel = k + 1 := ⟨fuel - 1, by omega⟩
    unfold findAllRec
    rw [if_neg (by unfold maxPointsPerLeaf; omega)]
    simp only [hpv, hmp, Option.bind_eq_bind, Option.bind_some]
    generalize hmid : b + (e - b) / 2 = mid at *
    have h1 : (if dist pv q - dist pv mp ≤ radius then findAllRec dist g q radius fuel b mid res else some res) =
        some (res ++ hits dist g q radius b mid) := by
      split
      · exact ih1 fuel res (by omega) (by omega) (by omega)
      · rename_i hp
        rw [hits_nil, List.append_nil]
        intro i x hi1 hi2 hx
        exact lt_of_lt_of_le (not_le.1 hp) (pruned_left hd (hle i x hi1 hi2 hx))
    rw [h1]
    simp only [Option.bind_some]
    rw [← hits_append (b := b) (m := mid) (e := e) (by omega) (by omega), ← List.append_assoc]
    split
    · exact ih2 fuel _ (by omega) (by omega) (by omega)
    · rename_i hp
      rw [hits_nil (b := mid), List.append_nil]
      intro i x hi1 hi2 hx
      exact lt_of_lt_of_le (not_le.1 hp) (pruned_right hd (hge i x hi1 hi2 hx))

end RK
