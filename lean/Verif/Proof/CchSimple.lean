import Verif.Proof.CchUnpack
/-! Paths of queries on customizable contraction hierarchies visit no node twice. -/
namespace RK
open Spec

/-! ### Walks as lists of nodes -/

/-- A walk through the listed nodes. -/
inductive LWalk (A : ArcRel) : List Nat → Nat → Prop
  | one (x : Nat) : LWalk A [x] 0
  | cons {i x y w l : Nat} {ns : List Nat} : A i x y w → LWalk A (y :: ns) l → LWalk A (x :: y :: ns) (w + l)

/-- All arcs in the other direction. -/
def revArcs (A : ArcRel) : ArcRel := fun i x y w => A i y x w

theorem revArcs_revArcs (A : ArcRel) : revArcs (revArcs A) = A := rfl

theorem LWalk.append {A : ArcRel} {u l2 : Nat} {B : List Nat} (h2 : LWalk A (u :: B) l2) :
    ∀ {K : List Nat} {l1 : Nat}, LWalk A (K ++ [u]) l1 → LWalk A (K ++ u :: B) (l1 + l2)
  | [], l1, h => by cases h; simpa using h2
  | [x], l1, h => by
    cases h with
    | cons ha h => cases h; simpa using LWalk.cons ha h2
  | x :: y :: K, l1, h => by
    cases h with
    | @cons i _ _ w l _ ha h =>
      rw [Nat.add_assoc]
      exact .cons ha (LWalk.append h2 (K := y :: K) h)

theorem LWalk.split {A : ArcRel} {u : Nat} {B : List Nat} :
    ∀ {K : List Nat} {l : Nat}, LWalk A (K ++ u :: B) l → ∃ l1 l2, l = l1 + l2 ∧ LWalk A (K ++ [u]) l1 ∧ LWalk A (u :: B) l2
  | [], l, h => ⟨0, l, by omega, .one u, h⟩
  | [x], l, h => by
    cases h with
    | @cons i _ _ w l _ ha h => exact ⟨w + 0, l, by omega, .cons ha (.one u), h⟩
  | x :: y :: K, l, h => by
    cases h with
    | @cons i _ _ w l _ ha h =>
      obtain ⟨l1, l2, e, h1, h2⟩ := LWalk.split (K := y :: K) h
      exact ⟨w + l1, l2, by omega, .cons ha h1, h2⟩

theorem LWalk.reverse {A : ArcRel} {ns : List Nat} {l : Nat} (h : LWalk A ns l) : LWalk (revArcs A) ns.reverse l := by
  induction h with
  | one x => exact .one x
  | @cons i x y w l ns ha h ih =>
    rw [List.reverse_cons, List.reverse_cons] at *
    have h2 : LWalk (revArcs A) [y, x] (w + 0) := .cons (A := revArcs A) ha (.one x)
    have := LWalk.append h2 ih
    rw [Nat.add_comm w l]
    simpa using this

theorem LWalk.inner {A : ArcRel} {I : Nat → Prop} {y : Nat} : ∀ {K : List Nat} {x l : Nat}, LWalk A (x :: K ++ [y]) l → (∀ v ∈ K, I v) →
    ∃ p, InnerWalk A I x p y l
  | [], x, l, h, _ => by
    cases h with
    | cons ha h => cases h; exact ⟨_, .edge ha⟩
  | z :: K, x, l, h, hI => by
    cases h with
    | cons ha h =>
      obtain ⟨p, hp⟩ := LWalk.inner (K := K) h (fun v hv => hI v (by simp [hv]))
      exact ⟨_, .step ha (hI z (by simp)) hp⟩

theorem SegWalk.lwalk {on : CchHandle} {A : ArcRel} {x y l : Nat} {s : List Segment} (h : SegWalk on A x s y l) :
    LWalk A (s.map Segment.node ++ [y]) l ∧ (s.map Segment.node ++ [y]).head? = some x := by
  induction h with
  | nil x => exact ⟨.one x, rfl⟩
  | @cons s i z y w l segs h1 h2 h3 ih =>
    obtain ⟨ih1, ih2⟩ := ih
    refine ⟨?_, rfl⟩
    cases segs with
    | nil => cases h3; exact .cons h2 ih1
    | cons s' segs => simp at ih2; subst ih2; exact .cons h2 ih1

/-- Every nonempty list has a largest element. -/
theorem exists_max : ∀ {K : List Nat}, K ≠ [] → ∃ z ∈ K, ∀ v ∈ K, v ≤ z
  | [x], _ => ⟨x, by simp, by simp⟩
  | x :: y :: K, _ => by
    obtain ⟨z, h1, h2⟩ := exists_max (K := y :: K) (by simp)
    rcases Nat.le_total x z with h | h
    · exact ⟨z, List.mem_cons_of_mem _ h1, fun v hv => by
        rcases List.mem_cons.1 hv with rfl | hv
        · exact h
        · exact h2 v hv⟩
    · exact ⟨x, by simp, fun v hv => by
        rcases List.mem_cons.1 hv with rfl | hv
        · exact Nat.le_refl _
        · have := h2 v hv; omega⟩

/-- The part before the first occurrence. -/
theorem first_split {z : Nat} : ∀ {K : List Nat}, z ∈ K → ∃ K1 K2, K = K1 ++ z :: K2 ∧ z ∉ K1
  | x :: K, h => by
    by_cases hx : x = z
    · exact ⟨[], K, by simp [hx], by simp⟩
    · obtain ⟨K1, K2, e, h1⟩ := first_split (K := K) (by
        rcases List.mem_cons.1 h with h | h
        · exact absurd h.symm hx
        · exact h)
      exact ⟨x :: K1, K2, by simp [e], by simp [h1, Ne.symm hx]⟩

/-- The part after the last occurrence. -/
theorem last_split {z : Nat} {K : List Nat} (h : z ∈ K) : ∃ K1 K2, K = K1 ++ z :: K2 ∧ z ∉ K2 := by
  obtain ⟨K1, K2, e, h1⟩ := first_split (List.mem_reverse.2 h)
  refine ⟨K2.reverse, K1.reverse, ?_, by simpa using h1⟩
  have := congrArg List.reverse e
  simpa using this

theorem head?_mid {α : Type} (K1 K2 K3 : List α) (z : α) : (K1 ++ z :: K2).head? = (K1 ++ z :: K3).head? := by
  cases K1 <;> rfl

theorem getLast?_mid {α : Type} (K1 K2 K3 : List α) (z : α) : (K1 ++ z :: K3).getLast? = (K2 ++ z :: K3).getLast? := by
  simp [List.getLast?_append, List.getLast?_cons]

/-- Between `pre` and `post`, pass the largest node once. -/
theorem LWalk.atMax {A : ArcRel} {pre K post : List Nat} {l : Nat} (hw : LWalk A (pre ++ K ++ post) l) (hK : K ≠ []) :
    ∃ z ∈ K, ∃ K1 K4 l1 l2, (∀ v ∈ K1, v < z) ∧ (∀ v ∈ K4, v < z) ∧ LWalk A (pre ++ K1 ++ [z]) l1 ∧ LWalk A (z :: K4 ++ post) l2 ∧
      l1 + l2 ≤ l ∧ (K1 ++ [z]).head? = K.head? ∧ (z :: K4).getLast? = K.getLast? := by
  obtain ⟨z, hz, hmax⟩ := exists_max hK
  obtain ⟨K1, K2, e1, n1⟩ := first_split hz
  obtain ⟨K3, K4, e2, n2⟩ := last_split hz
  have hw1 := hw
  rw [e1, show pre ++ (K1 ++ z :: K2) ++ post = (pre ++ K1) ++ z :: (K2 ++ post) by simp] at hw1
  obtain ⟨a1, a2, ea, h1, h2⟩ := hw1.split
  have hlt : ∀ {v}, v ∈ K → v ≠ z → v < z := fun hv hne => Nat.lt_of_le_of_ne (hmax _ hv) hne
  have hl2 : ∃ l2, l2 ≤ a2 ∧ LWalk A (z :: K4 ++ post) l2 := by
    rw [e1] at e2
    rcases List.append_eq_append_iff.1 e2 with ⟨c, c1, c2⟩ | ⟨c, c1, c2⟩
    · -- the last occurrence is not before the first one
      cases c with
      | nil =>
        simp only [List.nil_append, List.cons.injEq, true_and] at c2
        subst c2
        exact ⟨a2, Nat.le_refl _, by simpa using h2⟩
      | cons y c =>
        simp only [List.cons_append, List.cons.injEq] at c2
        obtain ⟨rfl, rfl⟩ := c2
        have h2' : LWalk A ((z :: c) ++ z :: (K4 ++ post)) a2 := by simpa using h2
        obtain ⟨b1, b2, eb, _, h4⟩ := h2'.split
        exact ⟨b2, by omega, by simpa using h4⟩
    · cases c with
      | nil =>
        simp only [List.nil_append, List.cons.injEq, true_and] at c2
        subst c2
        exact ⟨a2, Nat.le_refl _, by simpa using h2⟩
      | cons y c =>
        simp only [List.cons_append, List.cons.injEq] at c2
        obtain ⟨rfl, rfl⟩ := c2
        exact absurd (by simp) n2
  obtain ⟨l2, hle, h4⟩ := hl2
  refine ⟨z, hz, K1, K4, a1, l2, fun v hv => hlt (by rw [e1]; simp [hv]) (fun hh => n1 (hh ▸ hv)),
    fun v hv => hlt (by rw [e2]; simp [hv]) (fun hh => n2 (hh ▸ hv)), by simpa using h1, h4, by omega, ?_, ?_⟩
  · rw [e1]; exact head?_mid _ _ _ _
  · rw [e2]; exact getLast?_mid [] K3 K4 z

/-- Both parts of a path through its largest node `z` have no node in common if every way through lower nodes is longer. -/
theorem glue {A : ArcRel} {pre K post L : List Nat} {z l : Nat} (hw : LWalk A (pre ++ K ++ z :: L ++ post) l)
    (hK : ∀ v ∈ K, v < z) (hL : ∀ v ∈ L, v < z)
    (hmin : ∀ z' K1 K4 l1 l2, z' < z → (∀ v ∈ K1, v < z') → (∀ v ∈ K4, v < z') → LWalk A (pre ++ K1 ++ [z']) l1 →
      LWalk A (z' :: K4 ++ post) l2 → (K1 ++ [z']).head? = K.head? → (z' :: K4).getLast? = L.getLast? → l < l1 + l2) :
    ∀ u ∈ K, u ∉ L := by
  intro u hu hu'
  obtain ⟨K1, K2, rfl⟩ := List.append_of_mem hu
  obtain ⟨L1, L2, rfl⟩ := List.append_of_mem hu'
  rw [show pre ++ (K1 ++ u :: K2) ++ z :: (L1 ++ u :: L2) ++ post = (pre ++ K1) ++ u :: (K2 ++ z :: L1 ++ u :: (L2 ++ post)) by simp] at hw
  obtain ⟨a1, a2, e1, h1, h2⟩ := hw.split
  rw [show u :: (K2 ++ z :: L1 ++ u :: (L2 ++ post)) = (u :: K2 ++ z :: L1) ++ u :: (L2 ++ post) by simp] at h2
  obtain ⟨b1, b2, e2, _, h4⟩ := h2.split
  have h5 := LWalk.append h4 h1
  rw [show pre ++ K1 ++ u :: (L2 ++ post) = pre ++ (K1 ++ u :: L2) ++ post by simp] at h5
  obtain ⟨z', hz', M1, M4, l1, l2, g1, g2, g3, g4, g5, g6, g7⟩ := h5.atMax (by simp)
  have hz : z' < z := by
    rcases List.mem_append.1 hz' with h | h
    · exact hK _ (List.mem_append_left _ h)
    · exact hL _ (List.mem_append_right _ h)
  have := hmin z' M1 M4 l1 l2 hz g1 g2 g3 g4 (g6.trans (head?_mid _ _ _ _)) (g7.trans (getLast?_mid _ _ _ _))
  omega

/-! ### The elimination tree -/

/-- `y` is `x` or above it in the tree. -/
inductive Anc (parent : List Nat) : Nat → Nat → Prop
  | refl (x : Nat) : Anc parent x x
  | up {x p y : Nat} : rd parent x = some p → p ≠ invalidId → Anc parent p y → Anc parent x y

theorem Anc.trans {parent : List Nat} {x y z : Nat} (h : Anc parent x y) (h' : Anc parent y z) : Anc parent x z := by
  induction h with
  | refl => exact h'
  | up h1 h2 _ ih => exact .up h1 h2 (ih h')

theorem Anc.total {parent : List Nat} {s x y : Nat} (h : Anc parent s x) (h' : Anc parent s y) :
    Anc parent x y ∨ Anc parent y x := by
  induction h with
  | refl => exact Or.inl h'
  | @up s p x h1 h2 h3 ih =>
    cases h' with
    | refl => exact Or.inr (.up h1 h2 h3)
    | @up _ p' _ g1 g2 g3 =>
      cases (h1.symm.trans g1 : some p = some p')
      exact ih g3

theorem Anc.le {n : Nat} {c : Cch} (ht : TreeOk n c) {x y : Nat} (h : Anc c.parent x y) : x ≤ y := by
  induction h with
  | refl => exact Nat.le_refl _
  | @up x p y h1 _ _ ih =>
    have hx : x < n := by have := rd_some_lt h1; have := ht.len; omega
    obtain ⟨p', h3, h4, _⟩ := ht.parent x hx
    cases (h1.symm.trans h3 : some p = some p')
    omega

/-- Nodes above come later in the list. -/
theorem Anc.mem {parent L : List Nat} (hL : Topo parent L) {x y : Nat} (h : Anc parent x y) : x ∈ L → y ∈ L := by
  induction h with
  | refl => exact id
  | up h1 h2 _ ih => exact fun hx => ih (hL.parent_mem hx h1 h2)

theorem Anc.before {parent pre post : List Nat} {p q : Nat} (hL : Topo parent (pre ++ p :: post)) (h : Anc parent q p) (hne : q ≠ p)
    (hq : q ∈ pre ++ p :: post) : q ∈ pre := by
  rcases List.mem_append.1 hq with hq | hq
  · exact hq
  · exfalso
    have hsuf := hL.suffix
    cases hsuf with
    | cons h1 h2 _ _ =>
      rcases List.mem_cons.1 hq with hq | hq
      · exact hne hq
      · exact h2 (Anc.mem h1 h hq)

theorem anc_of_fill {n : Nat} {rt rh : List Nat} {c : Cch} {U : List Bool} (hn : n ≤ invalidId) (h : CchOk n rt rh c U) :
    ∀ k x y, y - x ≤ k → Fill rt rh x y → y < n → Anc c.parent x y := by
  intro k
  induction k with
  | zero => intro x y hk hf; have := hf.1; omega
  | succ k ih =>
    intro x y hk hf hy
    obtain ⟨p, hp, hc⟩ := h.parent x (by have := hf.1; omega)
    rcases hc with ⟨_, hno⟩ | ⟨hxp, hle⟩
    · exact absurd hf (hno y)
    · have hpy := hle y hf
      have hlt := hxp.1
      refine .up hp (by omega) ?_
      by_cases hpe : p = y
      · subst hpe; exact .refl _
      · refine ih p y (by omega) ⟨by omega, ?_⟩ hy
        have p1 := innerPath_symm (fun _ _ h => Or.symm h) hxp.2
        exact innerPath_append (isPath_of_lt p1 (by omega)) hlt (isPath_of_lt hf.2 (by omega))

/-! ### Paths of one search -/

/-- The inner nodes of the path along a chain; `E p x` are the inner nodes of the arc from `p` to `x`. -/
def chainInner (E : Nat → Nat → List Nat) : List Nat → List Nat
  | x :: p :: l => chainInner E (p :: l) ++ p :: E p x
  | _ => []

section
variable {n : Nat} {c : Cch} {wv : List Nat} {W : Nat → Nat} {A : ArcRel}

/-- Walks through lower nodes are found by the search. -/
theorem lowWalk (h : UpCtx n c wv W) (harc : ∀ x y, HasArc c.upTail c.upHead x y → Anc c.parent x y)
    (hrel : ∀ x y K l, x < y → (∀ v ∈ K, v < x) → LWalk A (x :: K ++ [y]) l →
      ∃ a, rd c.upTail a = some x ∧ rd c.upHead a = some y ∧ W a ≤ l)
    {S : List (Nat × Nat)} {L : List Nat} {D P : Nat → Nat} (hi : SInv n c.upTail c.upHead W S L L D P) :
    ∀ k x K z l, x < k → x < n → (∀ v ∈ K, v < x) → LWalk A (K ++ [x]) l → (K ++ [x]).head? = some z →
      D x ≤ D z + l ∧ Anc c.parent z x := by
  intro k
  induction k with
  | zero => intro x K z l hx; omega
  | succ k ih =>
    intro x K z l hk hx hK hw hh
    by_cases hKn : K = []
    · subst hKn
      simp at hh
      subst hh
      exact ⟨Nat.le_add_right _ _, .refl _⟩
    · obtain ⟨z', hz', K1, K4, l1, l2, g1, _, g3, g4, g5, g6, _⟩ := LWalk.atMax (pre := []) (post := [x]) (by simpa using hw) hKn
      have hlt := hK z' hz'
      have hh' : (K1 ++ [z']).head? = some z := by
        rw [g6]
        cases K with
        | nil => exact absurd rfl hKn
        | cons => simpa using hh
      obtain ⟨r1, r2⟩ := ih z' K1 z l1 (by omega) (by omega) g1 (by simpa using g3) hh'
      obtain ⟨a, e1, e2, e3⟩ := hrel z' x K4 l2 hlt ‹_› g4
      refine ⟨?_, r2.trans (harc _ _ ⟨a, e1, e2⟩)⟩
      by_cases hzL : z' ∈ L
      · have := hi.done z' hzL a x e1 e2; omega
      · have := hi.out z' (by omega) hzL
        have := hi.le x hx
        omega

theorem chain_simple (h : UpCtx n c wv W) (ht : TreeOk n c) (harc : ∀ x y, HasArc c.upTail c.upHead x y → Anc c.parent x y)
    (hrel : ∀ x y K l, x < y → (∀ v ∈ K, v < x) → LWalk A (x :: K ++ [y]) l →
      ∃ a, rd c.upTail a = some x ∧ rd c.upHead a = some y ∧ W a ≤ l)
    {E : Nat → Nat → List Nat} (hE : ∀ a p x, rd c.upTail a = some p → rd c.upHead a = some x → W a < infWeight →
      LWalk A (p :: E p x ++ [x]) (W a) ∧ (∀ v ∈ E p x, v < p) ∧ (E p x).Nodup)
    {S : List (Nat × Nat)} {L : List Nat} {D P : Nat → Nat} (hL : Topo c.parent L) (hi : SInv n c.upTail c.upHead W S L L D P)
    {x z : Nat} {l : List Nat} (hc : UpChain c.upTail c.upHead W S D P x l z) : D x < infWeight → x < n →
    ∃ len, LWalk A (chainInner E l ++ [x]) len ∧ D x = D z + len ∧ (∀ v ∈ chainInner E l, v < x) ∧ (chainInner E l).Nodup ∧
      (chainInner E l ++ [x]).head? = some z ∧ Anc c.parent z x := by
  induction hc with
  | @src x h1 h2 => intro _ _; exact ⟨0, .one x, rfl, by simp [chainInner], by simp [chainInner], rfl, .refl x⟩
  | @step x p a z l h1 h2 h3 h4 h5 hc ih =>
    intro hlt hx
    obtain ⟨len, w1, e1, k1, k2, k3, k4⟩ := ih (by omega) (by omega)
    obtain ⟨w2, m1, m2⟩ := hE a p x h3 h4 (by omega)
    obtain ⟨l', rfl⟩ : ∃ l', l = p :: l' := by cases hc <;> exact ⟨_, rfl⟩
    have w3 := LWalk.append (B := E p x ++ [x]) (by simpa using w2) w1
    have hap := harc p x ⟨a, h3, h4⟩
    have hpL : p ∈ L := by
      rcases hi.lab x hx hlt with ⟨q, _⟩ | ⟨_, p', q1, q2, _⟩
      · have := h.small; rw [h1] at q; omega
      · rw [← h1, q1]; exact q2
    have hdis : ∀ u ∈ chainInner E (p :: l'), u ∉ E p x := by
      refine glue (pre := []) (post := [x]) (z := p) (by simpa using w3) k1 m1 ?_
      intro z' K1 K4 l1 l2 hz g1 g2 g3 g4 g5 _
      have hh' : (K1 ++ [z']).head? = some z := by
        rw [g5]
        cases hci : chainInner E (p :: l') with
        | nil => rw [hci] at g5; cases K1 <;> simp at g5
        | cons => rw [hci] at k3; simpa using k3
      obtain ⟨r1, r2⟩ := lowWalk h harc hrel hi (z' + 1) z' K1 z l1 (Nat.lt_succ_self _) (by omega) g1 (by simpa using g3) hh'
      obtain ⟨a', q1, q2, q3⟩ := hrel z' x K4 l2 (by omega) g2 g4
      by_cases hzL : z' ∈ L
      · obtain ⟨pre1, pre2, hsp⟩ := List.append_of_mem hpL
        have hanc : Anc c.parent z' p := by
          rcases r2.total k4 with r | r
          · exact r
          · have := r.le ht; omega
        have hbef : z' ∈ pre1 := by
          rw [hsp] at hL hzL
          exact hanc.before hL (by omega) hzL
        have := hi.first x hx hlt p pre1 pre2 h1 hsp z' hbef a' q1 q2
        omega
      · have := hi.out z' (by omega) hzL
        omega
    refine ⟨len + W a, ?_, by omega, ?_, ?_, ?_, k4.trans hap⟩
    · simpa [chainInner] using w3
    · intro v hv
      simp only [chainInner, List.mem_append, List.mem_cons] at hv
      rcases hv with hv | rfl | hv
      · have := k1 v hv; omega
      · exact h2
      · have := m1 v hv; omega
    · simp only [chainInner]
      rw [List.nodup_append]
      refine ⟨k2, List.nodup_cons.2 ⟨fun hm => by have := m1 p hm; omega, m2⟩, ?_⟩
      rintro u hu v hv rfl
      rcases List.mem_cons.1 hv with rfl | hv
      · have := k1 u hu; omega
      · exact hdis u hu hv
    · simp only [chainInner, List.append_assoc, List.cons_append]
      exact (head?_mid _ _ _ _).trans k3

end

/-! ### Unpacking arcs -/

theorem joinLoop_sorted {ha hb : List Nat} : ∀ {fuel i ie j je : Nat} {l : List (Nat × Nat × Nat)},
    joinLoop ha hb fuel i ie j je = some l → i ≤ ie →
    (∀ t ∈ l, (i ≤ t.1 ∧ t.1 < ie) ∧ rd ha t.1 = some t.2.2) ∧ l.Pairwise (fun s t => s.1 < t.1)
  | 0, _, _, _, _, _, h, _ => by simp [joinLoop] at h
  | fuel + 1, i, ie, j, je, l, h, hle => by
    unfold joinLoop at h
    split at h
    · rename_i hne
      have hlt : i < ie := Nat.lt_of_le_of_ne hle hne.1
      simp only [Option.bind_eq_bind, Option.bind_eq_some_iff] at h
      obtain ⟨x, hx, y, _, h⟩ := h
      split at h
      · obtain ⟨h1, h2⟩ := joinLoop_sorted h hlt
        exact ⟨fun t ht => ⟨by have := (h1 t ht).1; omega, (h1 t ht).2⟩, h2⟩
      · split at h
        · exact joinLoop_sorted h hle
        · simp only [Option.bind_eq_some_iff, Option.some.injEq] at h
          obtain ⟨r, hr, rfl⟩ := h
          obtain ⟨h1, h2⟩ := joinLoop_sorted hr hlt
          refine ⟨?_, List.pairwise_cons.2 ⟨fun t ht => ?_, h2⟩⟩
          · intro t ht
            rcases List.mem_cons.1 ht with rfl | ht
            · exact ⟨⟨Nat.le_refl _, hlt⟩, hx⟩
            · exact ⟨by have := (h1 t ht).1; omega, (h1 t ht).2⟩
          · have := (h1 t ht).1
            show i < t.1
            omega
    · simp only [Option.some.injEq] at h
      subst h
      simp

theorem mapM_keys {α β : Type} {f : α → Option β} {k : α → Nat} {k' : β → Nat} (hf : ∀ x y, f x = some y → k' y = k x) :
    ∀ {l : List α} {r : List β}, l.mapM f = some r → r.map k' = l.map k
  | [], r, h => by simp at h; subst h; rfl
  | x :: l, r, h => by
    simp only [List.mapM_cons, Option.bind_eq_bind, Option.bind_eq_some_iff, Option.pure_def, Option.some.injEq] at h
    obtain ⟨y, hy, ys, hys, rfl⟩ := h
    simp [hf _ _ hy, mapM_keys hf hys]

/-- The triangles come in the order of their bottom nodes. -/
theorem Cch.GraphOk.lowerTriangles_sorted {n : Nat} {c : Cch} (g : c.GraphOk n) {a x y : Nat} (hx : x < n) {l : List (Tri × Nat)}
    (h : c.lowerTriangles x y a = some l) : l.Pairwise (fun s t => s.2 < t.2) := by
  obtain ⟨xb, xe, e1, e2, _, _, s1, _, _⟩ := g.downRow hx
  unfold Cch.lowerTriangles at h
  simp only [e1, e2, Option.bind_eq_bind, Option.bind_some, Option.bind_eq_some_iff] at h
  obtain ⟨yb, e3, ye, e4, r, hr, hm⟩ := h
  have hk := mapM_keys (k := fun t : Nat × Nat × Nat => t.2.2) (k' := Prod.snd) (by
    rintro ⟨p, q, z⟩ T hT
    simp only [Cch.lowTri, Option.bind_eq_bind, Option.bind_eq_some_iff, Option.some.injEq] at hT
    obtain ⟨_, _, _, _, rfl⟩ := hT
    rfl) hm
  obtain ⟨h1, h2⟩ := joinLoop_sorted hr s1.le
  have h3 : r.Pairwise (fun s t => s.2.2 < t.2.2) := by
    refine h2.imp_of_mem ?_
    intro s t hs ht hst
    exact s1.lt _ _ _ _ (h1 s hs).1.1 hst (h1 t ht).1.2 (h1 s hs).2 (h1 t ht).2
  have h4 : (r.map fun t => t.2.2).Pairwise (· < ·) := List.pairwise_map.2 h3
  rw [← hk] at h4
  exact List.pairwise_map.1 h4

theorem firstFit_first {m : Metric} {isF : Bool} {t : Tri × Nat} : ∀ {l : List (Tri × Nat)}, firstFit m isF l = some (some t) →
    ∃ l1 l2, l = l1 ++ t :: l2 ∧ ∀ t' ∈ l1, triFits m isF t'.1 = some false
  | [], h => by simp [firstFit] at h
  | s :: l, h => by
    unfold firstFit at h
    simp only [Option.bind_eq_bind, Option.bind_eq_some_iff] at h
    obtain ⟨r, hr, h⟩ := h
    cases r with
    | true =>
      simp only [if_true, Option.some.injEq] at h
      subst h
      exact ⟨[], l, rfl, by simp⟩
    | false =>
      simp only [Bool.false_eq_true, if_false] at h
      obtain ⟨l1, l2, rfl, h2⟩ := firstFit_first h
      refine ⟨s :: l1, l2, rfl, ?_⟩
      intro t' ht'
      rcases List.mem_cons.1 ht' with rfl | ht'
      · exact hr
      · exact h2 t' ht'

/-- Lower triangles do not fit. -/
theorem earlier_tri {m : Metric} {isF : Bool} {T T' : Tri} {z z' : Nat} {l : List (Tri × Nat)}
    (hs : l.Pairwise (fun s t => s.2 < t.2)) (h : firstFit m isF l = some (some (T, z))) (hm : (T', z') ∈ l) (hz : z' < z) :
    triFits m isF T' = some false := by
  obtain ⟨l1, l2, rfl, h2⟩ := firstFit_first h
  rcases List.mem_append.1 hm with hm | hm
  · exact h2 _ hm
  · exfalso
    have hp := (List.pairwise_append.1 hs).2.1
    rcases List.mem_cons.1 hm with he | hm
    · cases he; omega
    · have := (List.pairwise_cons.1 hp).1 _ hm
      exact absurd hz (Nat.lt_asymm this)

namespace Customized
variable {n : Nat} {rt rh : List Nat} {U : List Bool} {f b : Nat → Nat} {on : CchHandle}

/-- The walk of an arc through lower nodes is no shorter than the arc. -/
theorem relUp (h : Customized n rt rh on.inputWeight on.cch on.metric U f b) {x y l : Nat} {K : List Nat} (hxy : x < y)
    (hK : ∀ v ∈ K, v < x) (hw : LWalk (listArcs rt rh on.inputWeight) (x :: K ++ [y]) l) :
    ∃ a, rd on.cch.upTail a = some x ∧ rd on.cch.upHead a = some y ∧ f a ≤ l := by
  obtain ⟨p, hp⟩ := LWalk.inner (I := fun z => z < x) hw hK
  exact (h.cus.complete (h.ok.keep' h.wlen) x x y p l (Nat.le_refl _) (by omega) (by omega) hp).1 hxy

theorem relDown (h : Customized n rt rh on.inputWeight on.cch on.metric U f b) {x y l : Nat} {K : List Nat} (hxy : x < y)
    (hK : ∀ v ∈ K, v < x) (hw : LWalk (listArcs rt rh on.inputWeight) (y :: K ++ [x]) l) :
    ∃ a, rd on.cch.upTail a = some x ∧ rd on.cch.upHead a = some y ∧ b a ≤ l := by
  obtain ⟨p, hp⟩ := LWalk.inner (I := fun z => z < x) hw hK
  exact (h.cus.complete (h.ok.keep' h.wlen) x y x p l (by omega) (Nat.le_refl _) (by omega) hp).2 hxy

/-- The nodes of an unpacked arc. -/
theorem unpackArc_simple (h : Customized n rt rh on.inputWeight on.cch on.metric U f b) : ∀ (fuel a x y : Nat), x < fuel →
    rd on.cch.upTail a = some x → rd on.cch.upHead a = some y →
    (f a < infWeight → ∃ s K, unpackArc on.cch on.metric fuel true x y a = some s ∧ s.map Segment.node = x :: K ∧
      LWalk (listArcs rt rh on.inputWeight) (x :: K ++ [y]) (f a) ∧ (∀ v ∈ K, v < x) ∧ K.Nodup) ∧
    (b a < infWeight → ∃ s K, unpackArc on.cch on.metric fuel false x y a = some s ∧ s.map Segment.node = y :: K ∧
      LWalk (listArcs rt rh on.inputWeight) (y :: K ++ [x]) (b a) ∧ (∀ v ∈ K, v < x) ∧ K.Nodup)
  | 0, _, x, _, hf, _, _ => absurd hf (Nat.not_lt_zero x)
  | fuel + 1, a, x, y, hf, hx, hy => by
    have hcons := cons_of_cinv h.ok.graph.up h.cus (h.ok.keep' h.wlen) a x y hx hy
    obtain ⟨hxy, hyn⟩ := h.ok.graph.up.up x y ⟨a, hx, hy⟩
    obtain ⟨l, el, hl⟩ := h.ok.graph.lowerTriangles_spec hx hy
    have hsort := h.ok.graph.lowerTriangles_sorted (by omega) el
    have htri : ∀ t ∈ l, TriAt on.cch.upTail on.cch.upHead t.1 t.2 x y ∧ t.1.top = a := fun t ht =>
      ⟨((hl t.1 t.2).1 ht).2, ((hl t.1 t.2).1 ht).1⟩
    have hle := h.cus.le
    have fitF : ∀ t ∈ l, triFits on.metric true t.1 = some (decide (f a = b t.1.bottom + f t.1.mid)) := by
      intro t ht
      obtain ⟨hT, hta⟩ := htri t ht
      have n1 := rd_some_lt hT.bt
      have n2 := rd_some_lt hT.mt
      unfold triFits
      simp only [if_true, hta, h.is.fwd a (rd_some_lt hx), h.is.bwd _ n1, h.is.fwd _ n2, Option.bind_eq_bind, Option.bind_some,
        add32_le (hle _ n1).2 (hle _ n2).1]
    have fitB : ∀ t ∈ l, triFits on.metric false t.1 = some (decide (b a = f t.1.bottom + b t.1.mid)) := by
      intro t ht
      obtain ⟨hT, hta⟩ := htri t ht
      have n1 := rd_some_lt hT.bt
      have n2 := rd_some_lt hT.mt
      unfold triFits
      simp only [Bool.false_eq_true, if_false, hta, h.is.bwd a (rd_some_lt hx), h.is.fwd _ n1, h.is.bwd _ n2, Option.bind_eq_bind,
        Option.bind_some, add32_le (hle _ n1).1 (hle _ n2).2]
    have lower : ∀ t ∈ l, t.2 < x := by
      intro t ht
      obtain ⟨hT, _⟩ := htri t ht
      exact (h.ok.graph.up.up _ _ ⟨_, hT.bt, hT.bh⟩).1
    constructor
    · intro hlt
      rcases firstFit_spec (m := on.metric) (isF := true) (l := l) (fun t ht => ⟨_, fitF t ht⟩) with ⟨e1, hno⟩ | ⟨⟨T, z⟩, ht, e1, hfit⟩
      · refine ⟨[⟨x, a, true⟩], [], ?_, rfl, ?_, by simp, by simp⟩
        · unfold unpackArc
          simp only [hx, hy, decide_true, check_true, el, e1, Option.bind_eq_bind, Option.bind_some, if_true]
        · rcases hcons.1.2.2 with hinf | ⟨i, hc⟩ | ⟨T, z, g1, g2, g3⟩
          · omega
          · exact .cons (l := 0) hc (.one y)
          · have hm := (hl T z).2 ⟨g1, g2⟩
            have := (hno _ hm).symm.trans (fitF _ hm)
            simp only [Option.some.injEq, Bool.false_eq] at this
            simp only [decide_eq_false_iff_not] at this
            exact absurd g3 this
      · rw [fitF _ ht] at hfit
        have hsum : f a = b T.bottom + f T.mid := by simpa using hfit
        obtain ⟨hT, _⟩ := htri _ ht
        have hz : z < x := lower _ ht
        obtain ⟨_, u1⟩ := unpackArc_simple h fuel T.bottom z x (by omega) hT.bt hT.bh
        obtain ⟨u2, _⟩ := unpackArc_simple h fuel T.mid z y (by omega) hT.mt hT.mh
        obtain ⟨s1, K1, e2, d1, w1, k1, n1⟩ := u1 (by omega)
        obtain ⟨s2, K2, e3, d2, w2, k2, n2⟩ := u2 (by omega)
        have w3 := LWalk.append (K := x :: K1) (B := K2 ++ [y]) w2 w1
        rw [← hsum] at w3
        have hdis : ∀ u ∈ K1, u ∉ K2 := by
          refine glue (pre := [x]) (post := [y]) (z := z) (by simpa using w3) k1 k2 ?_
          intro z' M1 M4 l1 l2 hz' g1 g2 g3 g4 _ _
          obtain ⟨a1, p1, p2, p3⟩ := h.relDown (x := z') (y := x) (by omega) g1 g3
          obtain ⟨a2, q1, q2, q3⟩ := h.relUp (x := z') (y := y) (by omega) g2 g4
          have hT' : TriAt on.cch.upTail on.cch.upHead ⟨a1, a2, a⟩ z' x y := ⟨p1, p2, q1, q2, hx, hy⟩
          have hm := (hl ⟨a1, a2, a⟩ z').2 ⟨rfl, hT'⟩
          have hno := (earlier_tri hsort e1 hm hz').symm.trans (fitF _ hm)
          simp only [Option.some.injEq, Bool.false_eq] at hno
          simp only [decide_eq_false_iff_not] at hno
          have : f a ≤ b a1 + f a2 := (h.cus.done _ _ _ _ hT' trivial).1
          omega
        refine ⟨s1 ++ s2, K1 ++ z :: K2, ?_, by simp [d1, d2], by simpa using w3, ?_, ?_⟩
        · unfold unpackArc
          simp only [hx, hy, decide_true, check_true, el, e1, e2, e3, Option.bind_eq_bind, Option.bind_some, if_true]
        · intro v hv
          simp only [List.mem_append, List.mem_cons] at hv
          rcases hv with hv | rfl | hv
          · have := k1 v hv; omega
          · exact hz
          · have := k2 v hv; omega
        · rw [List.nodup_append]
          refine ⟨n1, List.nodup_cons.2 ⟨fun hm => by have := k2 z hm; omega, n2⟩, ?_⟩
          rintro u hu v hv rfl
          rcases List.mem_cons.1 hv with rfl | hv
          · have := k1 u hu; omega
          · exact hdis u hu hv
    · intro hlt
      rcases firstFit_spec (m := on.metric) (isF := false) (l := l) (fun t ht => ⟨_, fitB t ht⟩) with ⟨e1, hno⟩ | ⟨⟨T, z⟩, ht, e1, hfit⟩
      · refine ⟨[⟨y, a, false⟩], [], ?_, rfl, ?_, by simp, by simp⟩
        · unfold unpackArc
          simp only [hx, hy, decide_true, check_true, el, e1, Option.bind_eq_bind, Option.bind_some, Bool.false_eq_true, if_false]
        · rcases hcons.2.2.2 with hinf | ⟨i, hc⟩ | ⟨T, z, g1, g2, g3⟩
          · omega
          · exact .cons (l := 0) hc (.one x)
          · have hm := (hl T z).2 ⟨g1, g2⟩
            have := (hno _ hm).symm.trans (fitB _ hm)
            simp only [Option.some.injEq, Bool.false_eq] at this
            simp only [decide_eq_false_iff_not] at this
            exact absurd g3 this
      · rw [fitB _ ht] at hfit
        have hsum : b a = f T.bottom + b T.mid := by simpa using hfit
        obtain ⟨hT, _⟩ := htri _ ht
        have hz : z < x := lower _ ht
        obtain ⟨u1, _⟩ := unpackArc_simple h fuel T.bottom z x (by omega) hT.bt hT.bh
        obtain ⟨_, u2⟩ := unpackArc_simple h fuel T.mid z y (by omega) hT.mt hT.mh
        obtain ⟨s1, K1, e2, d1, w1, k1, n1⟩ := u1 (by omega)
        obtain ⟨s2, K2, e3, d2, w2, k2, n2⟩ := u2 (by omega)
        have w3 := LWalk.append (K := y :: K2) (B := K1 ++ [x]) w1 w2
        rw [Nat.add_comm, ← hsum] at w3
        have hdis : ∀ u ∈ K2, u ∉ K1 := by
          refine glue (pre := [y]) (post := [x]) (z := z) (by simpa using w3) k2 k1 ?_
          intro z' M1 M4 l1 l2 hz' g1 g2 g3 g4 _ _
          obtain ⟨a2, p1, p2, p3⟩ := h.relDown (x := z') (y := y) (by omega) g1 g3
          obtain ⟨a1, q1, q2, q3⟩ := h.relUp (x := z') (y := x) (by omega) g2 g4
          have hT' : TriAt on.cch.upTail on.cch.upHead ⟨a1, a2, a⟩ z' x y := ⟨q1, q2, p1, p2, hx, hy⟩
          have hm := (hl ⟨a1, a2, a⟩ z').2 ⟨rfl, hT'⟩
          have hno := (earlier_tri hsort e1 hm hz').symm.trans (fitB _ hm)
          simp only [Option.some.injEq, Bool.false_eq] at hno
          simp only [decide_eq_false_iff_not] at hno
          have : b a ≤ f a1 + b a2 := (h.cus.done _ _ _ _ hT' trivial).2
          omega
        refine ⟨s2 ++ s1, K2 ++ z :: K1, ?_, by simp [d1, d2], by simpa using w3, ?_, ?_⟩
        · unfold unpackArc
          simp only [hx, hy, decide_true, check_true, el, e1, e2, e3, Option.bind_eq_bind, Option.bind_some, Bool.false_eq_true, if_false]
        · intro v hv
          simp only [List.mem_append, List.mem_cons] at hv
          rcases hv with hv | rfl | hv
          · have := k2 v hv; omega
          · exact hz
          · have := k1 v hv; omega
        · rw [List.nodup_append]
          refine ⟨n2, List.nodup_cons.2 ⟨fun hm => by have := k1 z hm; omega, n1⟩, ?_⟩
          rintro u hu v hv rfl
          rcases List.mem_cons.1 hv with rfl | hv
          · have := k2 u hu; omega
          · exact hdis u hu hv

/-- The inner nodes of an arc of the hierarchy, as the query finds them. -/
def innerOf (on : CchHandle) (isForward : Bool) (x y : Nat) : List Nat :=
  match findArcGivenSortedHead on.cch.upFirstOut on.cch.upHead x y with
  | some a =>
    match unpackArc on.cch on.metric (on.cch.rank.length + 1) isForward x y a with
    | some s => (s.map Segment.node).tail
    | none => []
  | none => []

theorem innerF_spec (h : Customized n rt rh on.inputWeight on.cch on.metric U f b) {a x y : Nat}
    (hx : rd on.cch.upTail a = some x) (hy : rd on.cch.upHead a = some y) (hlt : f a < infWeight) :
    ∃ s, unpackArc on.cch on.metric (on.cch.rank.length + 1) true x y a = some s ∧ s.map Segment.node = x :: innerOf on true x y ∧
      LWalk (listArcs rt rh on.inputWeight) (x :: innerOf on true x y ++ [y]) (f a) ∧ (∀ v ∈ innerOf on true x y, v < x) ∧
      (innerOf on true x y).Nodup := by
  obtain ⟨hxy, hyn⟩ := h.ok.graph.up.up x y ⟨a, hx, hy⟩
  have hxn : x < on.cch.rank.length + 1 := by have := h.ok.nodes; omega
  obtain ⟨s, K, e1, e2, e3, e4, e5⟩ := (h.unpackArc_simple _ a x y hxn hx hy).1 hlt
  have hK : innerOf on true x y = K := by
    unfold innerOf
    simp [h.ok.graph.up.find h.ok.small hx hy, e1, e2]
  rw [hK]
  exact ⟨s, e1, e2, e3, e4, e5⟩

theorem innerB_spec (h : Customized n rt rh on.inputWeight on.cch on.metric U f b) {a x y : Nat}
    (hx : rd on.cch.upTail a = some x) (hy : rd on.cch.upHead a = some y) (hlt : b a < infWeight) :
    ∃ s, unpackArc on.cch on.metric (on.cch.rank.length + 1) false x y a = some s ∧ s.map Segment.node = y :: innerOf on false x y ∧
      LWalk (listArcs rt rh on.inputWeight) (y :: innerOf on false x y ++ [x]) (b a) ∧ (∀ v ∈ innerOf on false x y, v < x) ∧
      (innerOf on false x y).Nodup := by
  obtain ⟨hxy, hyn⟩ := h.ok.graph.up.up x y ⟨a, hx, hy⟩
  have hxn : x < on.cch.rank.length + 1 := by have := h.ok.nodes; omega
  obtain ⟨s, K, e1, e2, e3, e4, e5⟩ := (h.unpackArc_simple _ a x y hxn hx hy).2 hlt
  have hK : innerOf on false x y = K := by
    unfold innerOf
    simp [h.ok.graph.up.find h.ok.small hx hy, e1, e2]
  rw [hK]
  exact ⟨s, e1, e2, e3, e4, e5⟩

theorem unpackUp_nodes (h : Customized n rt rh on.inputWeight on.cch on.metric U f b) {S : List (Nat × Nat)} {D P : Nat → Nat}
    {x z : Nat} {l : List Nat} (hc : UpChain on.cch.upTail on.cch.upHead f S D P x l z) : D x < infWeight →
    ∃ s, unpackUp on.cch on.metric l = some s ∧ s.map Segment.node = chainInner (innerOf on true) l := by
  induction hc with
  | src h1 h2 => intro _; exact ⟨[], rfl, rfl⟩
  | @step x p a z l h1 h2 h3 h4 h5 hc ih =>
    intro hlt
    obtain ⟨s, e1, e2⟩ := ih (by omega)
    obtain ⟨s2, e3, e4, _⟩ := h.innerF_spec h3 h4 (by omega)
    have hfind := h.ok.graph.up.find h.ok.small h3 h4
    obtain ⟨l', rfl⟩ : ∃ l', l = p :: l' := by cases hc <;> exact ⟨_, rfl⟩
    refine ⟨s ++ s2, ?_, by simp [chainInner, e2, e4]⟩
    unfold unpackUp
    simp only [e1, hfind, e3, Option.bind_eq_bind, Option.bind_some]

theorem unpackDown_nodes (h : Customized n rt rh on.inputWeight on.cch on.metric U f b) {S : List (Nat × Nat)} {D P : Nat → Nat}
    {x z : Nat} {l : List Nat} (hc : UpChain on.cch.upTail on.cch.upHead b S D P x l z) : D x < infWeight →
    ∃ s, unpackDown on.cch on.metric l = some s ∧
      s.map Segment.node ++ [z] = x :: (chainInner (fun p x => (innerOf on false p x).reverse) l).reverse := by
  induction hc with
  | src h1 h2 => intro _; exact ⟨[], rfl, rfl⟩
  | @step x p a z l h1 h2 h3 h4 h5 hc ih =>
    intro hlt
    obtain ⟨s, e1, e2⟩ := ih (by omega)
    obtain ⟨s2, e3, e4, _⟩ := h.innerB_spec h3 h4 (by omega)
    have hfind := h.ok.graph.up.find h.ok.small h3 h4
    obtain ⟨l', rfl⟩ : ∃ l', l = p :: l' := by cases hc <;> exact ⟨_, rfl⟩
    refine ⟨s2 ++ s, ?_, ?_⟩
    · unfold unpackDown
      simp only [e1, hfind, e3, Option.bind_eq_bind, Option.bind_some]
    · rw [List.map_append, List.append_assoc, e2, e4]
      simp [chainInner]

end Customized

end RK
