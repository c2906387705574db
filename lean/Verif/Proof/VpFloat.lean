import Verif.Model.VpFloat
import Verif.Proof.VpTree
import Mathlib.Data.Real.Basic
/-! # Vantage point trees with rounding -/
namespace RK

variable {P F : Type}

/-- What the standard says about `std::nth_element`. -/
def NthElementOkF (lt : F → F → Bool) (nth : Nat → Nat → List (PointData P F) → Nat → List (PointData P F)) : Prop :=
  ∀ b e l k, k < l.length → StrictWeak lt (l.map (·.distanceToPivot)) → (nth b e l k).Perm l ∧ ∀ x, (nth b e l k)[k]? = some x →
    (∀ y ∈ (nth b e l k).take k, lt x.distanceToPivot y.distanceToPivot = false) ∧
    (∀ y ∈ (nth b e l k).drop k, lt y.distanceToPivot x.distanceToPivot = false)

/-- The operations of `o` approximate the metric `dist` for all pairs of positions in the relation `N`: distances up to `ε`, differences up to `η`.
`val` is the value of a floating point number, `none` if it is not a number. -/
structure Approximates (o : DistOps P F) (val : F → Option ℝ) (dist : P → P → ℝ) (ε η : ℝ) (N : P → P → Prop) : Prop where
  symm : ∀ x y, N x y → N y x
  distances : ∀ x y, N x y → ∃ d, val (o.dist x y) = some d ∧ |d - dist x y| ≤ ε
  construction : ∀ x y, N x y → ∃ d, val (o.build x y) = some d ∧ |d - dist x y| ≤ ε
  sub : ∀ x y z, N x y → N x z → ∀ a b, val (o.dist x y) = some a → val (o.dist x z) = some b →
    ∃ d, val (o.sub (o.dist x y) (o.dist x z)) = some d ∧ |d - (a - b)| ≤ η
  le : ∀ a b x y, val a = some x → val b = some y → (o.le a b = true ↔ x ≤ y)
  lt : ∀ a b x y, val a = some x → val b = some y → (o.lt a b = true ↔ x < y)

/-- The order of the points in a range is approximately that of a vantage point tree. -/
inductive TreeF (dist : P → P → ℝ) (ε : ℝ) (N : P → P → Prop) : List P → Prop
  | leaf {l : List P} : l.length ≤ 8 → TreeF dist ε N l
  | node {l : List P} {pv mp : P} : 8 < l.length → l.head? = some pv → l[l.length / 2]? = some mp → N pv mp →
      (∀ x ∈ l.take (l.length / 2), dist pv x ≤ dist pv mp + 2 * ε) → (∀ x ∈ l.drop (l.length / 2), dist pv mp ≤ dist pv x + 2 * ε) →
      TreeF dist ε N (l.take (l.length / 2)) → TreeF dist ε N (l.drop (l.length / 2)) → TreeF dist ε N l

/-- The same with positions in a vector. -/
inductive VpTreeF (dist : P → P → ℝ) (ε : ℝ) (N : P → P → Prop) (pos : List P) : Nat → Nat → Prop
  | leaf {b e : Nat} : e - b ≤ 8 → VpTreeF dist ε N pos b e
  | node {b e : Nat} {pv mp : P} : 8 < e - b → rd pos b = some pv → rd pos (b + (e - b) / 2) = some mp → N pv mp →
      (∀ i x, b ≤ i → i < b + (e - b) / 2 → rd pos i = some x → dist pv x ≤ dist pv mp + 2 * ε) →
      (∀ i x, b + (e - b) / 2 ≤ i → i < e → rd pos i = some x → dist pv mp ≤ dist pv x + 2 * ε) →
      VpTreeF dist ε N pos b (b + (e - b) / 2) → VpTreeF dist ε N pos (b + (e - b) / 2) e → VpTreeF dist ε N pos b e

theorem TreeF.vp {dist : P → P → ℝ} {ε : ℝ} {N : P → P → Prop} {l : List P} (h : TreeF dist ε N l) : ∀ (A C : List P),
    VpTreeF dist ε N (A ++ l ++ C) A.length (A.length + l.length) := by
  induction h with
  | leaf h => intro A C; exact .leaf (by omega)
  | @node l pv mp h1 h2 h3 hN h4 h5 _ _ ih1 ih2 =>
    intro A C
    have hm : A.length + (A.length + l.length - A.length) / 2 = A.length + l.length / 2 := by omega
    have hlt : l.length / 2 < l.length := by omega
    refine .node (pv := pv) (mp := mp) (by omega) ?_ ?_ hN ?_ ?_ ?_ ?_
    · have := rd_mid (A := A) (C := C) (l := l) (i := 0) (by omega)
      rw [Nat.add_zero] at this
      rw [this, ← h2, List.head?_eq_getElem?]
    · rw [hm, rd_mid hlt]; exact h3
    · intro i x hi1 hi2 hx
      rw [hm] at hi2
      obtain ⟨k, rfl⟩ := Nat.exists_eq_add_of_le hi1
      rw [rd_mid (by omega)] at hx
      refine h4 x ?_
      refine List.mem_of_getElem? (i := k) ?_
      rw [List.getElem?_take, if_pos (by omega)]; exact hx
    · intro i x hi1 hi2 hx
      rw [hm] at hi1
      obtain ⟨k, rfl⟩ := Nat.exists_eq_add_of_le hi1
      rw [Nat.add_assoc, rd_mid (by omega)] at hx
      refine h5 x ?_
      refine List.mem_of_getElem? (i := k) ?_
      rw [List.getElem?_drop]; exact hx
    · have := ih1 A (l.drop (l.length / 2) ++ C)
      rw [hm]
      rw [← List.append_assoc, List.append_assoc A, List.take_append_drop] at this
      rw [List.length_take, Nat.min_eq_left (by omega)] at this
      exact this
    · have := ih2 (A ++ l.take (l.length / 2)) C
      rw [hm]
      rw [List.append_assoc A, List.take_append_drop] at this
      rw [List.length_append, List.length_take, List.length_drop, Nat.min_eq_left (by omega),
        show A.length + l.length / 2 + (l.length - l.length / 2) = A.length + l.length by omega] at this
      exact this

/-! ### Construction -/

variable {o : DistOps P F} {val : F → Option ℝ} {dist : P → P → ℝ} {ε η : ℝ} {N : P → P → Prop}

/-- The stored distances of a range are distances to its first point `pv`. -/
def Stored (o : DistOps P F) (pv : P) (x : PointData P F) : Prop :=
  x.distanceToPivot = o.dist pv x.position ∨ x.distanceToPivot = o.build pv x.position

theorem Stored.value {pv : P} {x : PointData P F} (h : Stored o pv x) (ha : Approximates o val dist ε η N) (hN : N pv x.position) :
    ∃ d, val x.distanceToPivot = some d ∧ |d - dist pv x.position| ≤ ε := by
  rcases h with h | h
  · rw [h]; exact ha.distances _ _ hN
  · rw [h]; exact ha.construction _ _ hN

theorem strictWeak_of_values (ha : Approximates o val dist ε η N) {l : List F} (h : ∀ x ∈ l, ∃ d, val x = some d) : StrictWeak o.lt l := by
  have key : ∀ a b x y, val a = some x → val b = some y → (o.lt a b = false ↔ y ≤ x) := by
    intro a b x y h1 h2
    rw [← not_lt, ← ha.lt a b x y h1 h2]
    cases o.lt a b <;> simp
  refine ⟨fun a h1 => ?_, fun a h1 b h2 c h3 h4 h5 => ?_, fun a h1 b h2 c h3 h4 h5 h6 h7 => ?_⟩
  · obtain ⟨x, hx⟩ := h a h1
    exact (key a a x x hx hx).2 le_rfl
  · obtain ⟨x, hx⟩ := h a h1
    obtain ⟨y, hy⟩ := h b h2
    obtain ⟨z, hz⟩ := h c h3
    rw [ha.lt _ _ _ _ hx hy] at h4
    rw [ha.lt _ _ _ _ hy hz] at h5
    exact (ha.lt _ _ _ _ hx hz).2 (h4.trans h5)
  · obtain ⟨x, hx⟩ := h a h1
    obtain ⟨y, hy⟩ := h b h2
    obtain ⟨z, hz⟩ := h c h3
    rw [key _ _ _ _ hx hy] at h4
    rw [key _ _ _ _ hy hx] at h5
    rw [key _ _ _ _ hy hz] at h6
    rw [key _ _ _ _ hz hy] at h7
    exact ⟨(key _ _ _ _ hx hz).2 (h6.trans h4), (key _ _ _ _ hz hx).2 (h5.trans h7)⟩

theorem constructTreeF_spec {nth : Nat → Nat → List (PointData P F) → Nat → List (PointData P F)} (hn : NthElementOkF o.lt nth)
    (hd : IsMetric dist) (ha : Approximates o val dist ε η N) (hε : 0 ≤ ε) : ∀ (fuel : Nat) (A seg C : List (PointData P F)), seg.length < fuel →
    (∀ pv, seg.head? = some pv → ∀ x ∈ seg, Stored o pv.position x) → (seg.map (·.position)).Pairwise N →
    ∃ seg', constructTreeF o nth fuel (A ++ seg ++ C) A.length (A.length + seg.length) = some (A ++ seg' ++ C) ∧
      (seg'.map PointData.key).Perm (seg.map PointData.key) ∧ seg'.head?.map PointData.key = seg.head?.map PointData.key ∧
      TreeF dist ε N (seg'.map (·.position)) := by
  intro fuel
  induction fuel with
  | zero => intro A seg C h; omega
  | succ fuel ih =>
    intro A seg C hf hp hpair
    unfold constructTreeF
    by_cases h8 : A.length + seg.length - A.length > maxPointsPerLeaf
    · rw [if_pos h8]
      have h8' : 8 < seg.length := by unfold maxPointsPerLeaf at h8; omega
      match seg, h8', hf, hp, hpair with
      | [], h8', _, _, _ => exact absurd h8' (by simp)
      | pv :: rest, h8', hf, hp, hpair =>
        rw [List.length_cons] at h8' hf
        have hmid : A.length + (A.length + (rest.length + 1) - A.length) / 2 = A.length + (rest.length + 1) / 2 := by
          congr 1; congr 1; omega
        simp only [List.length_cons, hmid]
        generalize hm : (rest.length + 1) / 2 = m
        have hm1 : 1 ≤ m := by omega
        have hm2 : m - 1 < rest.length := by omega
        rw [List.map_cons, List.pairwise_cons] at hpair
        obtain ⟨hNpv, hpair⟩ := hpair
        have hval : ∀ x ∈ rest, ∃ d, val x.distanceToPivot = some d ∧ |d - dist pv.position x.position| ≤ ε := fun x hx =>
          (hp pv rfl x (List.mem_cons_of_mem _ hx)).value ha (hNpv _ (List.mem_map_of_mem hx))
        have hsw : StrictWeak o.lt (rest.map (·.distanceToPivot)) := by
          refine strictWeak_of_values ha fun y hy => ?_
          obtain ⟨x, hx, rfl⟩ := List.mem_map.1 hy
          obtain ⟨d, hd, _⟩ := hval x hx
          exact ⟨d, hd⟩
        -- nth_element
        obtain ⟨hperm, hsplit⟩ := hn (A.length + 1) (A.length + (rest.length + 1)) rest (m - 1) hm2 hsw
        generalize hr : nth (A.length + 1) (A.length + (rest.length + 1)) rest (m - 1) = r at hperm hsplit
        have hrl := hperm.length_eq
        have hnth : nthElementF o nth (A ++ pv :: rest ++ C) (A.length + 1) (A.length + m) (A.length + (rest.length + 1)) =
            some (A ++ pv :: r ++ C) := by
          have e1 : (A ++ pv :: rest ++ C).take (A.length + 1) = A ++ [pv] := by
            rw [show A ++ pv :: rest ++ C = (A ++ [pv]) ++ (rest ++ C) by simp]
            exact List.take_left' (by simp)
          have e2 : ((A ++ pv :: rest ++ C).drop (A.length + 1)).take (A.length + (rest.length + 1) - (A.length + 1)) = rest := by
            rw [show A ++ pv :: rest ++ C = (A ++ [pv]) ++ (rest ++ C) by simp, List.drop_left' (by simp)]
            exact List.take_left' (by omega)
          have e3 : (A ++ pv :: rest ++ C).drop (A.length + (rest.length + 1)) = C := List.drop_left' (by simp)
          unfold nthElementF nthElement
          rw [e2, if_pos hsw, if_pos ⟨by omega, by omega, by simp⟩]
          rw [e1, e3, show A.length + m - (A.length + 1) = m - 1 by omega, hr]
          simp
        rw [hnth]
        simp only [Option.bind_eq_bind, Option.bind_some]
        -- the element in the middle
        obtain ⟨x0, hx0⟩ : ∃ x0, r[m - 1]? = some x0 := ⟨_, List.getElem?_eq_getElem (by omega)⟩
        obtain ⟨s1, s2⟩ := hsplit x0 hx0
        have hdist : ∀ y ∈ r, Stored o pv.position y := fun y hy =>
          hp pv rfl y (List.mem_cons_of_mem _ (hperm.mem_iff.1 hy))
        have hvalr : ∀ x ∈ r, ∃ d, val x.distanceToPivot = some d ∧ |d - dist pv.position x.position| ≤ ε := fun x hx => hval x (hperm.mem_iff.1 hx)
        have hpairr : (r.map (·.position)).Pairwise N :=
          (List.Perm.pairwise_iff (fun {x y} h => ha.symm x y h) (hperm.map _)).2 hpair
        have hNr : ∀ x ∈ r, N pv.position x.position := fun x hx => hNpv _ (List.mem_map_of_mem (hperm.mem_iff.1 hx))
        -- left half
        have hsplitL : A ++ pv :: r ++ C = A ++ (pv :: r.take (m - 1)) ++ (r.drop (m - 1) ++ C) := by
          rw [List.append_assoc, List.append_assoc, List.cons_append, List.cons_append, ← List.append_assoc (r.take (m - 1)),
            List.take_append_drop]
        have hLl : (pv :: r.take (m - 1)).length = m := by rw [List.length_cons, List.length_take]; omega
        obtain ⟨L, eL, pL, hL, tL⟩ := ih A (pv :: r.take (m - 1)) (r.drop (m - 1) ++ C) (by rw [hLl]; omega) (by
          intro p e x hx
          simp only [List.head?_cons, Option.some.injEq] at e
          subst e
          rcases List.mem_cons.1 hx with rfl | hx
          · exact hp x rfl x List.mem_cons_self
          · exact hdist x (List.mem_of_mem_take hx)) (by
          rw [List.map_cons, List.pairwise_cons]
          refine ⟨fun x hx => ?_, ?_⟩
          · obtain ⟨y, hy, rfl⟩ := List.mem_map.1 hx
            exact hNr y (List.mem_of_mem_take hy)
          · rw [List.map_take]
            exact hpairr.sublist (List.take_sublist _ _))
        rw [hLl, ← hsplitL] at eL
        rw [eL]
        simp only [Option.bind_some]
        have hLlen : L.length = m := by
          have := pL.length_eq
          rw [List.length_map, List.length_map, hLl] at this; exact this
        -- distances of the right half
        have hdr : r.drop (m - 1) = x0 :: r.drop m := by
          rw [List.drop_eq_getElem_cons (by omega), show m - 1 + 1 = m by omega]
          rw [List.getElem?_eq_getElem (by omega)] at hx0
          injection hx0 with hx0
          rw [hx0]
        have hDl : (r.drop (m - 1)).length = rest.length + 1 - m := by rw [List.length_drop]; omega
        have hre := redistance_spec (dist := o.build) (pv := x0.position) (r.drop (m - 1)) (A ++ L) C
        rw [List.length_append, hLlen, hDl, show A.length + m + (rest.length + 1 - m) = A.length + (rest.length + 1) by omega] at hre
        have hrd : rd (A ++ L ++ (r.drop (m - 1) ++ C)) (A.length + m) = some x0 := by
          have := rd_mid (A := A ++ L) (l := r.drop (m - 1)) (C := C) (i := 0) (by omega)
          rw [List.length_append, hLlen, Nat.add_zero, List.append_assoc (A ++ L)] at this
          rw [this, hdr]; rfl
        rw [hrd]
        simp only [Option.bind_some]
        rw [List.append_assoc (A ++ L)] at hre
        simp only [Option.bind_eq_bind] at hre
        rw [hre]
        simp only [Option.bind_some]
        -- right half
        generalize hR0 : (r.drop (m - 1)).map (fun x => { x with distanceToPivot := o.build x0.position x.position }) = R0
        have hR0l : R0.length = rest.length + 1 - m := by rw [← hR0, List.length_map, hDl]
        have hR0k : R0.map PointData.key = (r.drop (m - 1)).map PointData.key := by
          rw [← hR0, List.map_map]; rfl
        obtain ⟨R, eR, pR, hR, tR⟩ := ih (A ++ L) R0 C (by rw [hR0l]; omega) (by
          intro p e x hx
          rw [← hR0, hdr, List.map_cons, List.head?_cons] at e
          injection e with e
          rw [← hR0] at hx
          obtain ⟨y, _, rfl⟩ := List.mem_map.1 hx
          rw [← e]
          exact Or.inr rfl) (by
          rw [← hR0, List.map_map]
          show ((r.drop (m - 1)).map (·.position)).Pairwise N
          rw [List.map_drop]
          exact hpairr.sublist (List.drop_sublist _ _))
        rw [List.length_append, hLlen, hR0l, show A.length + m + (rest.length + 1 - m) = A.length + (rest.length + 1) by omega] at eR
        refine ⟨L ++ R, ?_, ?_, ?_, ?_⟩
        · rw [eR]; simp
        · rw [List.map_append]
          refine (List.Perm.append pL (pR.trans (by rw [hR0k]))).trans ?_
          rw [← List.map_append, List.cons_append, List.take_append_drop]
          exact (hperm.cons pv).map _
        · cases L with
          | nil => simp at hLlen; omega
          | cons a L => simpa using hL
        · have hlp : ∀ y ∈ L.map (·.position), y ∈ (pv :: r.take (m - 1)).map (·.position) := by
            intro y hy
            obtain ⟨z, hz, rfl⟩ := List.mem_map.1 hy
            have := pL.mem_iff.1 (List.mem_map_of_mem (f := PointData.key) hz)
            obtain ⟨w, hw, ew⟩ := List.mem_map.1 this
            exact List.mem_map.2 ⟨w, hw, congrArg Prod.fst ew⟩
          have hrp : ∀ y ∈ R.map (·.position), y ∈ (r.drop (m - 1)).map (·.position) := by
            intro y hy
            obtain ⟨z, hz, rfl⟩ := List.mem_map.1 hy
            have := pR.mem_iff.1 (List.mem_map_of_mem (f := PointData.key) hz)
            rw [hR0k] at this
            obtain ⟨w, hw, ew⟩ := List.mem_map.1 this
            exact List.mem_map.2 ⟨w, hw, congrArg Prod.fst ew⟩
          have hRl : R.length = rest.length + 1 - m := by
            have := pR.length_eq
            rw [List.length_map, List.length_map, hR0l] at this; exact this
          have hhead : (L ++ R).head?.map PointData.key = some pv.key := by
            cases L with
            | nil => simp at hLlen; omega
            | cons a L => simpa using hL
          have hmidR : R.head?.map PointData.key = some x0.key := by
            rw [hR, ← List.head?_map, hR0k, hdr]; rfl
          have hlen : ((L ++ R).map (·.position)).length / 2 = m := by
            rw [List.length_map, List.length_append, hLlen, hRl]; omega
          have htk : ((L ++ R).map (·.position)).take m = L.map (·.position) := by
            rw [List.map_append]; exact List.take_left' (by simpa using hLlen)
          have hdp : ((L ++ R).map (·.position)).drop m = R.map (·.position) := by
            rw [List.map_append]; exact List.drop_left' (by simpa using hLlen)
          have hx0r : x0 ∈ r := List.mem_of_getElem? hx0
          obtain ⟨d0, hd0, hd0'⟩ := hvalr x0 hx0r
          have hd0' := abs_le.1 hd0'
          refine .node (pv := pv.position) (mp := x0.position) ?_ ?_ ?_ (hNr x0 hx0r) ?_ ?_ ?_ ?_
          · rw [List.length_map, List.length_append, hLlen, hRl]; omega
          · rw [List.head?_map]
            cases e : (L ++ R).head? with
            | none => rw [e] at hhead; cases hhead
            | some a =>
              rw [e] at hhead
              injection hhead with hhead
              exact congrArg some (congrArg Prod.fst hhead)
          · rw [hlen, List.map_append, List.getElem?_append_right (by simp [hLlen]), List.length_map, hLlen, Nat.sub_self,
              ← List.head?_eq_getElem?, List.head?_map]
            cases e : R.head? with
            | none => rw [e] at hmidR; cases hmidR
            | some a =>
              rw [e] at hmidR
              injection hmidR with hmidR
              exact congrArg some (congrArg Prod.fst hmidR)
          · rw [hlen, htk]
            intro y hy
            obtain ⟨z, hz, rfl⟩ := List.mem_map.1 (hlp y hy)
            rcases List.mem_cons.1 hz with rfl | hz
            · rw [hd.self]
              have := hd.nonneg z.position x0.position
              linarith
            · have := s1 z hz
              obtain ⟨d1, hd1, hd1'⟩ := hvalr z (List.mem_of_mem_take hz)
              have hd1' := abs_le.1 hd1'
              have := mt (ha.lt _ _ _ _ hd0 hd1).2 (by rw [this]; simp)
              linarith
          · rw [hlen, hdp]
            intro y hy
            obtain ⟨z, hz, rfl⟩ := List.mem_map.1 (hrp y hy)
            have := s2 z hz
            obtain ⟨d1, hd1, hd1'⟩ := hvalr z (List.mem_of_mem_drop hz)
            have hd1' := abs_le.1 hd1'
            have := mt (ha.lt _ _ _ _ hd1 hd0).2 (by rw [this]; simp)
            linarith
          · rw [hlen, htk]; exact tL
          · rw [hlen, hdp]; exact tR
    · rw [if_neg h8]
      refine ⟨seg, rfl, List.Perm.refl _, rfl, .leaf ?_⟩
      unfold maxPointsPerLeaf at h8
      rw [List.length_map]; omega

/-- The index contains the points, and they are in the order of a tree. -/
structure GeoIndex.OkF (dist : P → P → ℝ) (ε : ℝ) (N : P → P → Prop) (points : List P) (g : GeoIndex P) : Prop where
  length : g.position.length = g.id.length
  perm : (List.zip g.position g.id).Perm points.zipIdx
  tree : VpTreeF dist ε N g.position 0 g.position.length

theorem geoBuildF_ok {nth : Nat → Nat → List (PointData P F) → Nat → List (PointData P F)} (hn : NthElementOkF o.lt nth) (hd : IsMetric dist)
    (ha : Approximates o val dist ε η N) (hε : 0 ≤ ε) (points : List P) (hp : points.Pairwise N) :
    ∃ g, GeoIndex.buildF o nth points = some g ∧ g.OkF dist ε N points := by
  unfold GeoIndex.buildF
  generalize hdata : points.zipIdx.filterMap (fun x => points.head?.map (fun p0 => (⟨x.1, x.2, o.dist p0 x.1⟩ : PointData P F))) = data
  have hk : data.map PointData.key = points.zipIdx := by
    rw [← hdata]
    cases points with
    | nil => rfl
    | cons p points =>
      simp only [List.head?_cons, Option.map_some]
      rw [List.map_filterMap]
      simp [PointData.key]
  have hl : data.length = points.length := by
    have := congrArg List.length hk
    rw [List.length_map, List.length_zipIdx] at this; exact this
  obtain ⟨d', e1, p1, -, t1⟩ := constructTreeF_spec hn hd ha hε (points.length + 1) [] data [] (by omega) (by
    intro pv e x hx
    cases points with
    | nil => simp at hdata; subst hdata; simp at hx
    | cons p points =>
      have hh : pv.key = (p, 0) := by
        have := congrArg List.head? hk
        rw [List.head?_map, e] at this
        simpa using this
      have hpos : pv.position = p := congrArg Prod.fst hh
      rw [← hdata] at hx
      obtain ⟨y, _, ey⟩ := List.mem_filterMap.1 hx
      simp only [List.head?_cons, Option.map_some, Option.some.injEq] at ey
      rw [← ey, hpos]
      exact Or.inl rfl) (by
    have : data.map (·.position) = points := by
      have := congrArg (List.map Prod.fst) hk
      rw [List.map_map, List.zipIdx_map_fst] at this
      exact this
    rw [this]
    exact hp)
  simp only [List.length_nil, Nat.zero_add, List.nil_append, List.append_nil, hl] at e1
  simp only [e1, Option.bind_eq_bind, Option.bind_some]
  refine ⟨_, rfl, by simp, ?_, ?_⟩
  · have : List.zip (d'.map (·.position)) (d'.map (·.id)) = d'.map PointData.key := by
      rw [List.zip_map']; rfl
    show (List.zip (d'.map (·.position)) (d'.map (·.id))).Perm _
    rw [this, ← hk]; exact p1
  · have := t1.vp [] []
    simpa using this

/-! ### Queries -/

theorem skipped_left (hd : IsMetric dist) (ha : Approximates o val dist ε η N) {pv q x mp : P} (h : dist pv x ≤ dist pv mp + 2 * ε)
    (hq : N pv q) (hm : N pv mp) : ∃ d, val (o.sub (o.dist pv q) (o.dist pv mp)) = some d ∧ d ≤ dist q x + (4 * ε + η) := by
  obtain ⟨a, ea, ha'⟩ := ha.distances _ _ hq
  obtain ⟨b, eb, hb'⟩ := ha.distances _ _ hm
  obtain ⟨d, ed, hd'⟩ := ha.sub _ _ _ hq hm _ _ ea eb
  have h1 := abs_le.1 ha'
  have h2 := abs_le.1 hb'
  have h3 := abs_le.1 hd'
  have h4 := hd.triangle pv x q
  rw [hd.symm x q] at h4
  exact ⟨d, ed, by linarith⟩

theorem skipped_right (hd : IsMetric dist) (ha : Approximates o val dist ε η N) {pv q x mp : P} (h : dist pv mp ≤ dist pv x + 2 * ε)
    (hq : N pv q) (hm : N pv mp) : ∃ d, val (o.sub (o.dist pv mp) (o.dist pv q)) = some d ∧ d ≤ dist q x + (4 * ε + η) := by
  obtain ⟨a, ea, ha'⟩ := ha.distances _ _ hq
  obtain ⟨b, eb, hb'⟩ := ha.distances _ _ hm
  obtain ⟨d, ed, hd'⟩ := ha.sub _ _ _ hm hq _ _ eb ea
  have h1 := abs_le.1 ha'
  have h2 := abs_le.1 hb'
  have h3 := abs_le.1 hd'
  have h4 := hd.triangle pv q x
  exact ⟨d, ed, by linarith⟩

theorem not_le_of_false (ha : Approximates o val dist ε η N) {a b : F} {x y : ℝ} (h1 : val a = some x) (h2 : val b = some y)
    (h : ¬ o.le a b = true) : y < x := not_le.1 fun h' => h ((ha.le _ _ _ _ h1 h2).2 h')

theorem not_lt_of_false (ha : Approximates o val dist ε η N) {a b : F} {x y : ℝ} (h1 : val a = some x) (h2 : val b = some y)
    (h : ¬ o.lt a b = true) : y ≤ x := not_lt.1 fun h' => h ((ha.lt _ _ _ _ h1 h2).2 h')

/-- The outcome of the recursion on the range `[b, e)`: `c` and `d` are the distances before and after it. -/
structure NearF (o : DistOps P F) (val : F → Option ℝ) (dist : P → P → ℝ) (κ : ℝ) (g : GeoIndex P) (q : P) (b e : Nat) (cur r : GeoResult F) (c d : ℝ) : Prop where
  value : val r.distance = some d
  le : d ≤ c
  src : r = cur ∨ ∃ i x id, b ≤ i ∧ i < e ∧ rd g.position i = some x ∧ rd g.id i = some id ∧ r = ⟨id, o.dist q x⟩
  all : ∀ i x, b ≤ i → i < e → rd g.position i = some x → d ≤ dist q x + κ

theorem NearF.trans {κ : ℝ} {g : GeoIndex P} {q : P} {b m e : Nat} {c1 c2 c3 : GeoResult F} {d1 d2 d3 : ℝ} (h1 : NearF o val dist κ g q b m c1 c2 d1 d2)
    (h2 : NearF o val dist κ g q m e c2 c3 d2 d3) (hb : b ≤ m) (he : m ≤ e) : NearF o val dist κ g q b e c1 c3 d1 d3 := by
  refine ⟨h2.value, h2.le.trans h1.le, ?_, fun i x hi1 hi2 hx => ?_⟩
  · rcases h2.src with rfl | ⟨i, x, id, h3, h4, h5⟩
    · rcases h1.src with rfl | ⟨i, x, id, h3, h4, h5⟩
      · exact Or.inl rfl
      · exact Or.inr ⟨i, x, id, h3, by omega, h5⟩
    · exact Or.inr ⟨i, x, id, by omega, h4, h5⟩
  · by_cases hm : i < m
    · exact h2.le.trans (h1.all i x hi1 hm hx)
    · exact h2.all i x (by omega) hi2 hx

theorem NearF.trans' {κ : ℝ} {g : GeoIndex P} {q : P} {b m e : Nat} {c1 c2 c3 : GeoResult F} {d1 d2 d3 : ℝ} (h1 : NearF o val dist κ g q m e c1 c2 d1 d2)
    (h2 : NearF o val dist κ g q b m c2 c3 d2 d3) (hb : b ≤ m) (he : m ≤ e) : NearF o val dist κ g q b e c1 c3 d1 d3 := by
  refine ⟨h2.value, h2.le.trans h1.le, ?_, fun i x hi1 hi2 hx => ?_⟩
  · rcases h2.src with rfl | ⟨i, x, id, h3, h4, h5⟩
    · rcases h1.src with rfl | ⟨i, x, id, h3, h4, h5⟩
      · exact Or.inl rfl
      · exact Or.inr ⟨i, x, id, by omega, by omega, h5⟩
    · exact Or.inr ⟨i, x, id, by omega, by omega, h5⟩
  · by_cases hm : i < m
    · exact h2.all i x hi1 hm hx
    · exact h2.le.trans (h1.all i x (by omega) hi2 hx)

theorem nearestRecF_spec (hd : IsMetric dist) (ha : Approximates o val dist ε η N) (hε : 0 ≤ ε) (hη : 0 ≤ η) {g : GeoIndex P}
    (hl : g.position.length = g.id.length) (q : P) (hq : ∀ x ∈ g.position, N q x) {b e : Nat}
    (ht : VpTreeF dist ε N g.position b e) : ∀ (fuel : Nat) (cur : GeoResult F) (c : ℝ), val cur.distance = some c →
    b ≤ e → e ≤ g.position.length → e - b < fuel →
    ∃ r d, nearestRecF o g q fuel b e cur = some r ∧ NearF o val dist (4 * ε + η) g q b e cur r c d := by
  induction ht with
  | @leaf b e h8 =>
    intro fuel cur c hc0 hbe he hf
    obtain ⟨fuel, rfl⟩ : ∃ k, fuel = k + 1 := ⟨fuel - 1, by omega⟩
    unfold nearestRecF
    rw [if_pos (by unfold maxPointsPerLeaf; omega)]
    suffices h : ∃ r, forRange b e cur (fun cur i => do
        let x ← rd g.position i
        if o.le (o.dist q x) cur.distance then do
          let id ← rd g.id i
          some ⟨id, o.dist q x⟩
        else some cur) = some r ∧ ∃ d, NearF o val dist (4 * ε + η) g q b e cur r c d by
      obtain ⟨r, h1, d, h2⟩ := h
      exact ⟨r, d, h1, h2⟩
    refine forRange_inv (fun i r => ∃ d, NearF o val dist (4 * ε + η) g q b i cur r c d) hbe
      ⟨c, hc0, le_refl _, Or.inl rfl, fun i x h1 h2 => by omega⟩ ?_
    rintro i r hi1 hi2 ⟨d, hr⟩
    obtain ⟨x, hx⟩ := rd_isSome (v := g.position) (i := i) (by omega)
    obtain ⟨id, hid⟩ := rd_isSome (v := g.id) (i := i) (by omega)
    obtain ⟨a, ea, ha'⟩ := ha.distances _ _ (hq x (List.mem_of_getElem? hx))
    have ha'' := abs_le.1 ha'
    simp only [hx, Option.bind_eq_bind, Option.bind_some]
    by_cases hc : o.le (o.dist q x) r.distance = true
    · rw [if_pos hc, hid]
      refine ⟨_, rfl, a, hr.trans (m := i) ⟨ea, (ha.le _ _ _ _ ea hr.value).1 hc, Or.inr ⟨i, x, id, Nat.le_refl _, by omega, hx, hid, rfl⟩, ?_⟩ hi1 (by omega)⟩
      intro j y h1 h2 hy
      rw [show j = i by omega, hx] at hy
      injection hy with hy
      rw [← hy]
      linarith
    · rw [if_neg hc]
      refine ⟨_, rfl, d, hr.trans (m := i) ⟨hr.value, le_refl _, Or.inl rfl, ?_⟩ hi1 (by omega)⟩
      intro j y h1 h2 hy
      rw [show j = i by omega, hx] at hy
      injection hy with hy
      rw [← hy]
      have := not_le_of_false ha ea hr.value hc
      linarith
  | @node b e pv mp h8 hpv hmp hN hle hge _ _ ih1 ih2 =>
    intro fuel cur c hc0 hbe he hf
    obtain ⟨fuel, rfl⟩ : ∃ k, fuel = k + 1 := ⟨fuel - 1, by omega⟩
    have hNq := ha.symm _ _ (hq pv (List.mem_of_getElem? hpv))
    unfold nearestRecF
    rw [if_neg (by unfold maxPointsPerLeaf; omega)]
    simp only [hpv, hmp, Option.bind_eq_bind, Option.bind_some]
    generalize hmid : b + (e - b) / 2 = mid at *
    by_cases hc : o.le (o.dist pv mp) (o.dist pv q) = true
    · rw [if_pos hc]
      obtain ⟨r1, d1, e1, n1⟩ := ih2 fuel cur c hc0 (by omega) he (by omega)
      simp only [e1, Option.bind_some]
      by_cases hp : o.lt (o.sub (o.dist pv q) (o.dist pv mp)) r1.distance = true
      · rw [if_pos hp]
        obtain ⟨r2, d2, e2, n2⟩ := ih1 fuel r1 d1 n1.value (by omega) (by omega) (by omega)
        exact ⟨r2, d2, e2, n1.trans' n2 (by omega) (by omega)⟩
      · rw [if_neg hp]
        refine ⟨r1, d1, rfl, n1.trans' ⟨n1.value, le_refl _, Or.inl rfl, ?_⟩ (by omega) (by omega)⟩
        intro i x hi1 hi2 hx
        obtain ⟨d, ed, hd'⟩ := skipped_left hd ha (hle i x hi1 hi2 hx) hNq hN
        exact (not_lt_of_false ha ed n1.value hp).trans hd'
    · rw [if_neg hc]
      obtain ⟨r1, d1, e1, n1⟩ := ih1 fuel cur c hc0 (by omega) (by omega) (by omega)
      simp only [e1, Option.bind_some]
      by_cases hp : o.lt (o.sub (o.dist pv mp) (o.dist pv q)) r1.distance = true
      · rw [if_pos hp]
        obtain ⟨r2, d2, e2, n2⟩ := ih2 fuel r1 d1 n1.value (by omega) (by omega) (by omega)
        exact ⟨r2, d2, e2, n1.trans n2 (by omega) (by omega)⟩
      · rw [if_neg hp]
        refine ⟨r1, d1, rfl, n1.trans ⟨n1.value, le_refl _, Or.inl rfl, ?_⟩ (by omega) (by omega)⟩
        intro i x hi1 hi2 hx
        obtain ⟨d, ed, hd'⟩ := skipped_right hd ha (hge i x hi1 hi2 hx) hNq hN
        exact (not_lt_of_false ha ed n1.value hp).trans hd'

/-- The result for one point. -/
def hitF (o : DistOps P F) (q : P) (radius : F) (x : P × Nat) : Option (GeoResult F) :=
  if o.le (o.dist q x.1) radius then some ⟨x.2, o.dist q x.1⟩ else none

/-- The points in the range `[b, e)`. -/
def GeoIndex.slice (g : GeoIndex P) (b e : Nat) : List (P × Nat) := ((List.zip g.position g.id).drop b).take (e - b)

theorem slice_append {g : GeoIndex P} {b m e : Nat} (h1 : b ≤ m) (h2 : m ≤ e) : g.slice b m ++ g.slice m e = g.slice b e := by
  unfold GeoIndex.slice
  obtain ⟨k, rfl⟩ := Nat.exists_eq_add_of_le h1
  obtain ⟨j, rfl⟩ := Nat.exists_eq_add_of_le h2
  rw [show b + k - b = k by omega, show b + k + j - (b + k) = j by omega, show b + k + j - b = k + j by omega, List.take_add,
    List.drop_drop]

theorem slice_one {g : GeoIndex P} {i : Nat} {x : P} {id : Nat} (h1 : rd g.position i = some x) (h2 : rd g.id i = some id) :
    g.slice i (i + 1) = [(x, id)] := by
  unfold GeoIndex.slice
  have : (List.zip g.position g.id)[i]? = some (x, id) := by
    rw [List.getElem?_zip_eq_some]; exact ⟨h1, h2⟩
  obtain ⟨hlt, he⟩ := List.getElem?_eq_some_iff.1 this
  rw [show i + 1 - i = 1 by omega, List.drop_eq_getElem_cons hlt, he]
  simp only [List.take_succ_cons, List.take_zero]

theorem slice_mem {g : GeoIndex P} {b e : Nat} {x : P × Nat} (h : x ∈ g.slice b e) : ∃ i, b ≤ i ∧ i < e ∧ rd g.position i = some x.1 := by
  obtain ⟨i, hi⟩ := List.mem_iff_getElem?.1 h
  unfold GeoIndex.slice at hi
  rw [List.getElem?_take] at hi
  split at hi
  · rename_i hlt
    rw [List.getElem?_drop] at hi
    have hi := List.getElem?_zip_eq_some.1 (show _ = some (x.1, x.2) from hi)
    exact ⟨_, by omega, by omega, hi.1⟩
  · cases hi

/-- The results `res` for the points `l`: only points within the radius, each at most once, in their order; and all points that are within the
radius by more than `κ`. -/
structure AllF (o : DistOps P F) (dist : P → P → ℝ) (κ : ℝ) (q : P) (radius : F) (R : ℝ) (l : List (P × Nat)) (res : List (GeoResult F)) : Prop where
  sound : res.Sublist (l.filterMap (hitF o q radius))
  complete : ∀ x ∈ l, dist q x.1 + κ ≤ R → ⟨x.2, o.dist q x.1⟩ ∈ res

theorem AllF.append {κ : ℝ} {q : P} {radius : F} {R : ℝ} {l l' : List (P × Nat)} {res res' : List (GeoResult F)} (h : AllF o dist κ q radius R l res)
    (h' : AllF o dist κ q radius R l' res') : AllF o dist κ q radius R (l ++ l') (res ++ res') := by
  refine ⟨by rw [List.filterMap_append]; exact h.sound.append h'.sound, fun x hx hr => ?_⟩
  rcases List.mem_append.1 hx with hx | hx
  · exact List.mem_append_left _ (h.complete x hx hr)
  · exact List.mem_append_right _ (h'.complete x hx hr)

theorem AllF.skip {κ : ℝ} {q : P} {radius : F} {R : ℝ} {l : List (P × Nat)} (h : ∀ x ∈ l, R < dist q x.1 + κ) : AllF o dist κ q radius R l [] :=
  ⟨List.nil_sublist _, fun x hx hr => absurd hr (not_le.2 (h x hx))⟩

theorem findAllRecF_spec (hd : IsMetric dist) (ha : Approximates o val dist ε η N) (hε : 0 ≤ ε) (hη : 0 ≤ η) {g : GeoIndex P}
    (hl : g.position.length = g.id.length) (q : P) (hq : ∀ x ∈ g.position, N q x) (radius : F) (R : ℝ) (hR : val radius = some R) {b e : Nat}
    (ht : VpTreeF dist ε N g.position b e) : ∀ (fuel : Nat) (res : List (GeoResult F)), b ≤ e → e ≤ g.position.length → e - b < fuel →
    ∃ new, findAllRecF o g q radius fuel b e res = some (res ++ new) ∧ AllF o dist (4 * ε + η) q radius R (g.slice b e) new := by
  induction ht with
  | @leaf b e h8 =>
    intro fuel res hbe he hf
    obtain ⟨fuel, rfl⟩ : ∃ k, fuel = k + 1 := ⟨fuel - 1, by omega⟩
    unfold findAllRecF
    rw [if_pos (by unfold maxPointsPerLeaf; omega)]
    have key : ∃ r, forRange b e res (fun res i => do
        let x ← rd g.position i
        if o.le (o.dist q x) radius then do
          let id ← rd g.id i
          some (res ++ [⟨id, o.dist q x⟩])
        else some res) = some r ∧ ∃ new, r = res ++ new ∧ AllF o dist (4 * ε + η) q radius R (g.slice b e) new := by
      refine forRange_inv (fun i r => ∃ new, r = res ++ new ∧ AllF o dist (4 * ε + η) q radius R (g.slice b i) new) hbe
        ⟨[], by simp, AllF.skip (by simp [GeoIndex.slice])⟩ ?_
      rintro i r hi1 hi2 ⟨new, rfl, hr⟩
      obtain ⟨x, hx⟩ := rd_isSome (v := g.position) (i := i) (by omega)
      obtain ⟨id, hid⟩ := rd_isSome (v := g.id) (i := i) (by omega)
      obtain ⟨a, ea, ha'⟩ := ha.distances _ _ (hq x (List.mem_of_getElem? hx))
      have ha'' := abs_le.1 ha'
      have happ := slice_append (g := g) hi1 (Nat.le_succ i)
      rw [slice_one hx hid] at happ
      rw [← happ]
      simp only [hx, Option.bind_eq_bind, Option.bind_some]
      by_cases hc : o.le (o.dist q x) radius = true
      · rw [if_pos hc, hid]
        refine ⟨_, rfl, new ++ [⟨id, o.dist q x⟩], by simp, hr.append ⟨?_, ?_⟩⟩
        · simp [hitF, hc]
        · intro y hy _
          rw [List.mem_singleton] at hy ⊢
          subst hy
          rfl
      · rw [if_neg hc]
        refine ⟨_, rfl, new ++ [], by simp, hr.append (.skip ?_)⟩
        intro y hy
        rw [List.mem_singleton] at hy
        subst hy
        have := not_le_of_false ha ea hR hc
        simp only []
        linarith
    obtain ⟨r, e1, new, e2, h⟩ := key
    exact ⟨new, by rw [e1, e2], h⟩
  | @node b e pv mp h8 hpv hmp hN hle hge _ _ ih1 ih2 =>
    intro fuel res hbe he hf
    obtain ⟨fuel, rfl⟩ : ∃ k, fuel = k + 1 := ⟨fuel - 1, by omega⟩
    have hNq := ha.symm _ _ (hq pv (List.mem_of_getElem? hpv))
    unfold findAllRecF
    rw [if_neg (by unfold maxPointsPerLeaf; omega)]
    simp only [hpv, hmp, Option.bind_eq_bind, Option.bind_some]
    generalize hmid : b + (e - b) / 2 = mid at *
    have h1 : ∃ new, (if o.le (o.sub (o.dist pv q) (o.dist pv mp)) radius then findAllRecF o g q radius fuel b mid res else some res) =
        some (res ++ new) ∧ AllF o dist (4 * ε + η) q radius R (g.slice b mid) new := by
      split
      · exact ih1 fuel res (by omega) (by omega) (by omega)
      · rename_i hp
        refine ⟨[], by simp, .skip fun x hx => ?_⟩
        obtain ⟨i, hi1, hi2, hx'⟩ := slice_mem hx
        obtain ⟨d, ed, hd'⟩ := skipped_left hd ha (hle i x.1 hi1 hi2 hx') hNq hN
        exact lt_of_lt_of_le (not_le_of_false ha ed hR hp) hd'
    obtain ⟨new1, e1, a1⟩ := h1
    rw [e1]
    simp only [Option.bind_some]
    rw [← slice_append (g := g) (b := b) (m := mid) (e := e) (by omega) (by omega)]
    split
    · obtain ⟨new2, e2, a2⟩ := ih2 fuel (res ++ new1) (by omega) (by omega) (by omega)
      exact ⟨new1 ++ new2, by rw [e2, List.append_assoc], a1.append a2⟩
    · rename_i hp
      refine ⟨new1 ++ [], by simp, a1.append (.skip fun x hx => ?_)⟩
      obtain ⟨i, hi1, hi2, hx'⟩ := slice_mem hx
      obtain ⟨d, ed, hd'⟩ := skipped_right hd ha (hge i x.1 hi1 hi2 hx') hNq hN
      exact lt_of_lt_of_le (not_le_of_false ha ed hR hp) hd'

end RK
