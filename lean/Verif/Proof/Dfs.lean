import Verif.Proof.FlowSum
/-! # Augmenting along the paths of a blocking flow (nested_dissection.cpp:159-210) -/
namespace RK
open Spec Nd BitVector

theorem findFree_spec {blocked : List Bool} : ∀ (k b : Nat),
    (∀ a, b ≤ a → a < b + k → a < blocked.length) →
    (findFree blocked k b = some invalidId ∧ ∀ a, b ≤ a → a < b + k → at' blocked a = true) ∨
    ∃ a, b ≤ a ∧ a < b + k ∧ findFree blocked k b = some a ∧ at' blocked a = false
  | 0, b, _ => Or.inl ⟨rfl, by intro a h1 h2; omega⟩
  | k + 1, b, h => by
    unfold findFree
    simp only [Option.bind_eq_bind]
    rw [rd_at (h b (by omega) (by omega)), Option.bind_some]
    cases hb : at' blocked b with
    | false =>
      right
      exact ⟨b, by omega, by omega, by simp, hb⟩
    | true =>
      simp only [Bool.not_true, Bool.false_eq_true, if_false]
      rcases findFree_spec k (b + 1) (fun a h1 h2 => h a (by omega) (by omega)) with ⟨h1, h2⟩ | ⟨a, h1, h2, h3, h4⟩
      · left
        refine ⟨h1, ?_⟩
        intro a h3 h4
        by_cases hab : a = b
        · rw [hab]; exact hb
        · exact h2 a (by omega) (by omega)
      · exact Or.inr ⟨a, by omega, by omega, h3, h4⟩

theorem count_false_set {l : List Bool} {a : Nat} (hl : a < l.length) (ha : at' l a = false) :
    (l.set a true).count false + 1 = l.count false := by
  rw [at_lt hl] at ha
  rw [List.count_set hl]
  have : 0 < l.count false := List.count_pos_iff.2 (ha ▸ List.getElem_mem hl)
  simp [ha]
  omega

/-- The state of the search for paths, apart from the current path.  `v0` is the flow before. -/
structure DfsInv (f : GraphFragment) (src tgt : List Bool) (Q : List Nat) (blocked0 : List Bool) (v0 : Nat)
    (s : DfsState) : Prop where
  pnl : s.pathNode.length = f.nodeCount
  pal : s.pathArc.length = f.nodeCount
  sl : s.sat.length = f.arcCount
  bl : s.blocked.length = f.arcCount
  mono : ∀ a, at' blocked0 a = true → at' s.blocked a = true
  uns : ∀ a x y, FragArc f a x y → x ∈ Q → at' s.blocked a = false → at' s.sat a = false
  anti : ∀ a b, rd f.backArc a = some b → at' s.sat a = true → at' s.sat b = true → False
  val : ∀ S : Nat → Bool, (∀ x, at' src x = true → S x = true) → (∀ x, at' tgt x = true → S x = false) →
    flowOut f s.sat S = v0 + s.paths
  dead : s.paths = 0 → ∀ a x y, FragArc f a x y → at' blocked0 a = false → at' s.blocked a = true →
    at' tgt y = false ∧ ∀ b z, FragArc f b y z → at' s.blocked b = true

/-- The current path. -/
structure PathInv (f : GraphFragment) (src : List Bool) (Q : List Nat) (blocked : List Bool) (pn pa : List Nat)
    (cnt : Nat) : Prop where
  root : ∃ r, rd pn 0 = some r ∧ at' src r = true
  arcs : ∀ i, i < cnt → ∃ a x y, rd pa i = some a ∧ FragArc f a x y ∧ rd pn i = some x ∧
    rd pn (i + 1) = some y ∧ at' blocked a = false
  inq : ∀ i, i ≤ cnt → ∃ p v, rd pn i = some v ∧ rd Q p = some v ∧ i ≤ p

/-- Unblocked arcs lead to targets or to later nodes of the queue. -/
def Forward (f : GraphFragment) (tgt : List Bool) (Q : List Nat) (blocked0 : List Bool) : Prop :=
  ∀ a x y p, FragArc f a x y → rd Q p = some x → at' blocked0 a = false →
    at' tgt y = true ∨ ∃ q, p < q ∧ rd Q q = some y

theorem pos_lt {f : GraphFragment} {src tgt : List Bool} {Q : List Nat} {blocked0 blocked : List Bool}
    {pn pa : List Nat} {cnt : Nat} (F : Forward f tgt Q blocked0) (hnd : Q.Nodup)
    (hnt : ∀ x ∈ Q, at' tgt x = false)
    (mono : ∀ a, at' blocked0 a = true → at' blocked a = true) (P : PathInv f src Q blocked pn pa cnt) :
    ∀ j, j ≤ cnt → ∀ i p q u v, i < j → rd pn i = some u → rd Q p = some u → rd pn j = some v →
      rd Q q = some v → p < q
  | 0, _, i, p, q, u, v, hij, _, _, _, _ => by omega
  | j + 1, hj, i, p, q, u, v, hij, h1, h2, h3, h4 => by
    obtain ⟨a, x, y, e1, e2, e3, e4, e5⟩ := P.arcs j (by omega)
    rw [h3] at e4; cases e4
    obtain ⟨r, w, g1, g2, _⟩ := P.inq j (by omega)
    rw [e3] at g1; cases g1
    have hb0 : at' blocked0 a = false := by
      cases h : at' blocked0 a with
      | false => rfl
      | true => rw [mono a h] at e5; cases e5
    have hrq : r < q := by
      rcases F a x v r e2 g2 hb0 with h | ⟨q', h, h'⟩
      · rw [hnt v (List.mem_of_getElem? h4)] at h; cases h
      · have := rd_nodup_inj hnd h' h4
        omega
    by_cases hij' : i = j
    · subst hij'
      rw [e3] at h1; cases h1
      have := rd_nodup_inj hnd h2 g2
      omega
    · have := pos_lt F hnd hnt mono P j (by omega) i p r u x (by omega) h1 h2 e3 g2
      omega

theorem augment_spec {f : GraphFragment} (o : FragmentOk f) {pn pa : List Nat} {c : Nat} {sat blocked : List Bool}
    (hsl : sat.length = f.arcCount) (hbl : blocked.length = f.arcCount)
    (hanti : ∀ a b, rd f.backArc a = some b → at' sat a = true → at' sat b = true → False)
    (H : ∀ i, i < c → ∃ a x y, rd pa i = some a ∧ FragArc f a x y ∧ rd pn i = some x ∧ rd pn (i + 1) = some y ∧
      at' blocked a = false ∧ at' sat a = false ∧ x ≠ y)
    (inj : ∀ i j a, i < c → j < c → rd pa i = some a → rd pa j = some a → i = j)
    {r : Nat} (hr : rd pn 0 = some r) :
    ∃ sat' blocked', forRange 0 c (sat, blocked) (augmentArc f pa) = some (sat', blocked') ∧
      sat'.length = f.arcCount ∧ blocked'.length = f.arcCount ∧
      (∀ a b, rd f.backArc a = some b → at' sat' a = true → at' sat' b = true → False) ∧
      (∀ a, at' sat' a = true → at' sat a = true ∨ ∃ j, j < c ∧ rd pa j = some a) ∧
      (∀ a, at' blocked' a = true ↔ at' blocked a = true ∨ ∃ j, j < c ∧ rd pa j = some a) ∧
      blocked'.count false + c = blocked.count false ∧
      ∀ S z, rd pn c = some z → flowOut f sat' S = flowOut f sat S + ind S r - ind S z := by
  obtain ⟨⟨sat', blocked'⟩, e, h⟩ := forRange_inv (lo := 0) (hi := c) (s := (sat, blocked)) (f := augmentArc f pa)
    (fun i (t : List Bool × List Bool) =>
      t.1.length = f.arcCount ∧ t.2.length = f.arcCount ∧
      (∀ a b, rd f.backArc a = some b → at' t.1 a = true → at' t.1 b = true → False) ∧
      (∀ a, at' t.1 a = true → at' sat a = true ∨ ∃ j, j < i ∧ rd pa j = some a) ∧
      (∀ a, at' t.2 a = true ↔ at' blocked a = true ∨ ∃ j, j < i ∧ rd pa j = some a) ∧
      t.2.count false + i = blocked.count false ∧
      ∀ S z, rd pn i = some z → flowOut f t.1 S = flowOut f sat S + ind S r - ind S z)
    (Nat.zero_le _)
    ⟨hsl, hbl, hanti, fun a h => Or.inl h, by
      intro a; constructor
      · exact Or.inl
      · rintro (h | ⟨j, h, _⟩)
        · exact h
        · omega, rfl, by
      intro S z hz
      rw [hr] at hz; cases hz
      simp only
      omega⟩
    (by
      rintro i ⟨st, bt⟩ _ hi ⟨g1, g2, g3, g4, g5, g6, g7⟩
      simp only at g1 g2 g3 g4 g5 g6 g7
      obtain ⟨a, x, y, e1, e2, e3, e4, e5, e6, e7⟩ := H i hi
      have ham := fragArc_arc_lt e2
      obtain ⟨b, hb, hB⟩ := fragArc_back o e2
      have hbm := fragArc_arc_lt hB.2
      have hsa : at' st a = false := by
        cases h : at' st a with
        | false => rfl
        | true =>
          rcases g4 a h with h' | ⟨j, hj, hj'⟩
          · rw [e6] at h'; cases h'
          · have := inj i j a hi (by omega) e1 hj'
            omega
      have hba : at' bt a = false := by
        cases h : at' bt a with
        | false => rfl
        | true =>
          rcases (g5 a).1 h with h' | ⟨j, hj, hj'⟩
          · rw [e5] at h'; cases h'
          · have := inj i j a hi (by omega) e1 hj'
            omega
      have hab : b ≠ a := by
        rintro rfl
        have := fragArc_inj e2 hB.2
        exact e7 this.1
      have hfl : ∀ S, crossing f S b = - crossing f S a := by
        intro S
        rw [crossing_eq e2, crossing_eq hB.2]
        omega
      have hbl' : ∀ c', at' (bt.set a true) c' = true ↔ at' blocked c' = true ∨ ∃ j, j < i + 1 ∧ rd pa j = some c' := by
        intro c'
        rw [at_set (by omega)]
        by_cases hc : c' = a
        · subst hc
          rw [if_pos rfl]
          simp only [true_iff]
          exact Or.inr ⟨i, by omega, e1⟩
        · rw [if_neg hc, g5]
          refine or_congr Iff.rfl ?_
          constructor
          · rintro ⟨j, hj, hj'⟩; exact ⟨j, by omega, hj'⟩
          · rintro ⟨j, hj, hj'⟩
            refine ⟨j, ?_, hj'⟩
            by_contra hji
            have : j = i := by omega
            subst this
            rw [e1] at hj'; cases hj'
            exact hc rfl
      have hct := count_false_set (l := bt) (a := a) (by omega) hba
      have g7' := fun S => g7 S x e3
      cases hsb : at' st b with
      | true =>
        refine ⟨(st.set b false, bt.set a true), ?_, by simpa using g1, by simpa using g2, ?_, ?_, hbl', ?_, ?_⟩
        · unfold augmentArc
          simp only [Option.bind_eq_bind, e1, Option.bind_some]
          rw [rd_at (by omega), hsa, wr_at (by omega), hb]
          simp only [Option.bind_some, Bool.not_false, check_true]
          rw [rd_at (by omega), hsb]
          simp only [Option.bind_some, if_true]
          rw [wr_at (by omega)]
          rfl
        · intro c d hcd h1 h2
          simp only at h1 h2
          rw [at_set (by omega)] at h1 h2
          split at h1
          · cases h1
          · split at h2
            · cases h2
            · exact g3 c d hcd h1 h2
        · intro c h1
          simp only at h1
          rw [at_set (by omega)] at h1
          split at h1
          · cases h1
          · rcases g4 c h1 with h | ⟨j, hj, hj'⟩
            · exact Or.inl h
            · exact Or.inr ⟨j, by omega, hj'⟩
        · simp only; omega
        · intro S z hz
          rw [e4] at hz; cases hz
          simp only
          rw [flowOut_set hbm g1, hsb, hfl, g7' S, crossing_eq e2]
          simp only [Bool.false_eq_true, if_false, if_true]
          omega
      | false =>
        refine ⟨(st.set a true, bt.set a true), ?_, by simpa using g1, by simpa using g2, ?_, ?_, hbl', ?_, ?_⟩
        · unfold augmentArc
          simp only [Option.bind_eq_bind, e1, Option.bind_some]
          rw [rd_at (by omega), hsa, wr_at (by omega), hb]
          simp only [Option.bind_some, Bool.not_false, check_true]
          rw [rd_at (by omega), hsb]
          simp only [Option.bind_some, Bool.false_eq_true, if_false]
          rw [wr_at (by omega)]
          rfl
        · intro c d hcd h1 h2
          simp only at h1 h2
          rw [at_set (by omega)] at h1 h2
          split at h1
          · rename_i hca
            subst hca
            rw [hb] at hcd; cases hcd
            rw [if_neg hab, hsb] at h2
            cases h2
          · split at h2
            · rename_i hda
              subst hda
              -- back of c is a, so c = b
              obtain ⟨x', y', hC⟩ := fragArc_exists o (a := c) (by
                have := at_eq_true_lt h1
                omega)
              have := (o.back c d x' y' hcd hC).1
              have h3 : rd f.backArc d = some c := this
              rw [hb] at h3; cases h3
              rw [hsb] at h1; cases h1
            · exact g3 c d hcd h1 h2
        · intro c h1
          simp only at h1
          rw [at_set (by omega)] at h1
          split at h1
          · rename_i hca
            subst hca
            exact Or.inr ⟨i, by omega, e1⟩
          · rcases g4 c h1 with h | ⟨j, hj, hj'⟩
            · exact Or.inl h
            · exact Or.inr ⟨j, by omega, hj'⟩
        · simp only; omega
        · intro S z hz
          rw [e4] at hz; cases hz
          simp only
          rw [flowOut_set ham g1, hsa, g7' S, crossing_eq e2]
          simp only [Bool.false_eq_true, if_false, if_true]
          omega)
  exact ⟨sat', blocked', e, h⟩

/-- Bounds the number of iterations that remain. -/
def dfsMeasure (f : GraphFragment) (s : DfsState) : Nat :=
  s.blocked.count false * (f.nodeCount + 1) + (f.nodeCount - s.cnt)

theorem dfsStep_spec {f : GraphFragment} (o : FragmentOk f) (hm : f.arcCount < u32) {src tgt : List Bool}
    {Q : List Nat} {blocked0 : List Bool} {v0 : Nat} (F : Forward f tgt Q blocked0) (hnd : Q.Nodup)
    (hql : ∀ x ∈ Q, x < f.nodeCount) (hQn : Q.length < f.nodeCount)
    (E : Ends f src tgt) (hnt : ∀ x ∈ Q, at' tgt x = false) {s : DfsState}
    (I : DfsInv f src tgt Q blocked0 v0 s) (P : PathInv f src Q s.blocked s.pathNode s.pathArc s.cnt) :
    (dfsStep f tgt s = some none ∧ s.cnt = 0 ∧
      ∀ r a y, rd s.pathNode 0 = some r → FragArc f a r y → at' s.blocked a = true) ∨
    ∃ s', dfsStep f tgt s = some (some s') ∧ DfsInv f src tgt Q blocked0 v0 s' ∧
      PathInv f src Q s'.blocked s'.pathNode s'.pathArc s'.cnt ∧ dfsMeasure f s' < dfsMeasure f s ∧
      rd s'.pathNode 0 = rd s.pathNode 0 ∧ ∀ a, at' s.blocked a = true → at' s'.blocked a = true := by
  obtain ⟨p, x, hx, hp, hcp⟩ := P.inq s.cnt (Nat.le_refl _)
  have hpl := rd_some_lt hp
  have hxQ : x ∈ Q := List.mem_of_getElem? hp
  have hxl := hql x hxQ
  obtain ⟨b, e, hb, he, hbe, hiff⟩ := o.first_out x hxl
  have hb' : rd f.firstOut x = some b := hb
  have he' : rd f.firstOut (x + 1) = some e := he
  have hem : ∀ a, b ≤ a → a < e → a < f.arcCount := fun a h1 h2 => rd_some_lt (v := f.tail) ((hiff a).2 ⟨h1, h2⟩)
  have hlen := I.bl
  unfold dfsStep
  simp only [hx, hb', he', Option.bind_eq_bind, Option.bind_some]
  rcases findFree_spec (blocked := s.blocked) (e - b) b
      (fun a h1 h2 => by rw [hlen]; exact hem a h1 (by omega)) with ⟨h1, h2⟩ | ⟨xy, h1, h2, h3, h4⟩
  · -- all arcs are blocked
    have hall : ∀ a y, FragArc f a x y → at' s.blocked a = true := by
      intro a y hA
      have := (hiff a).1 hA.1
      exact h2 a (by omega) (by omega)
    rw [h1, Option.bind_some, if_pos rfl]
    by_cases hc0 : s.cnt = 0
    · left
      rw [if_pos hc0]
      refine ⟨rfl, hc0, ?_⟩
      intro r a y hr hA
      rw [hc0, hr] at hx; cases hx
      exact hall a y hA
    · right
      rw [if_neg hc0]
      obtain ⟨a, u, v, e1, e2, e3, e4, e5⟩ := P.arcs (s.cnt - 1) (by omega)
      have ham := fragArc_arc_lt e2
      have hsx : s.cnt - 1 + 1 = s.cnt := by omega
      rw [hsx, hx] at e4; cases e4
      rw [e1, Option.bind_some, wr_at (by omega), Option.bind_some]
      have hbk : ∀ c, at' (s.blocked.set a true) c = true ↔ c = a ∨ at' s.blocked c = true := by
        intro c
        rw [at_set (by omega)]
        by_cases hca : c = a
        · simp [hca]
        · simp [hca]
      have hbf : ∀ c, at' (s.blocked.set a true) c = false ↔ c ≠ a ∧ at' s.blocked c = false := by
        intro c
        rw [at_set (by omega)]
        by_cases hca : c = a
        · simp [hca]
        · simp [hca]
      refine ⟨_, rfl, ⟨I.pnl, I.pal, I.sl, by simpa using I.bl, ?_, ?_, I.anti, I.val, ?_⟩, ⟨P.root, ?_, ?_⟩, ?_, rfl, ?_⟩
      · intro c hc
        exact (hbk c).2 (Or.inr (I.mono c hc))
      · intro c x' y' hA hq hc
        exact I.uns c x' y' hA hq ((hbf c).1 hc).2
      · intro h0 c x' y' hA h5 h6
        rcases (hbk c).1 h6 with rfl | h6
        · obtain ⟨rfl, rfl⟩ := fragArc_inj hA e2
          exact ⟨hnt _ hxQ, fun d z hD => (hbk d).2 (Or.inr (hall d z hD))⟩
        · obtain ⟨h7, h8⟩ := I.dead h0 c x' y' hA h5 h6
          exact ⟨h7, fun d z hD => (hbk d).2 (Or.inr (h8 d z hD))⟩
      · intro i hi
        simp only at hi
        obtain ⟨c, u', v', g1, g2, g3, g4, g5⟩ := P.arcs i (by omega)
        refine ⟨c, u', v', g1, g2, g3, g4, (hbf c).2 ⟨?_, g5⟩⟩
        rintro rfl
        obtain ⟨rfl, rfl⟩ := fragArc_inj g2 e2
        obtain ⟨p1, w1, k1, k2, _⟩ := P.inq i (by omega)
        rw [g3] at k1; cases k1
        have := pos_lt F hnd hnt I.mono P (s.cnt - 1) (by omega) i p1 p1 _ _ hi g3 k2 e3 k2
        omega
      · intro i hi
        exact P.inq i (by simp only at hi; omega)
      · have := count_false_set (l := s.blocked) (a := a) (by omega) e5
        unfold dfsMeasure
        simp only
        rw [← this, Nat.add_mul]
        omega
      · intro c hc
        exact (hbk c).2 (Or.inr hc)
  · right
    have hxm : xy < f.arcCount := hem xy h1 (by omega)
    have hxy : xy ≠ invalidId := by
      have : invalidId = 4294967295 := rfl
      have hu : u32 = 4294967296 := rfl
      omega
    have ht : rd f.tail xy = some x := (hiff xy).2 ⟨by omega, by omega⟩
    obtain ⟨y, hy⟩ := rd_isSome (v := f.head) (i := xy) (by rw [o.head_len]; exact hxm)
    have hA : FragArc f xy x y := ⟨ht, hy⟩
    have hyl : y < f.nodeCount := (fragArc_lt o hA).2
    have hb0 : at' blocked0 xy = false := by
      cases h : at' blocked0 xy with
      | false => rfl
      | true => rw [I.mono xy h] at h4; cases h4
    have hpnl := I.pnl
    have hpal := I.pal
    rw [h3, Option.bind_some, if_neg hxy, hy, Option.bind_some, wr_lt (by omega), Option.bind_some, wr_lt (by omega),
      Option.bind_some, rd_at (by have := E.tl; omega), Option.bind_some]
    -- the extended path
    have hpn : ∀ i v, i ≤ s.cnt → (rd (s.pathNode.set (s.cnt + 1) y) i = some v ↔ rd s.pathNode i = some v) := by
      intro i v hi
      rw [rd_set (by omega), if_neg (by omega)]
    have hpn1 : rd (s.pathNode.set (s.cnt + 1) y) (s.cnt + 1) = some y := by
      rw [rd_set (by omega), if_pos rfl]
    have hpa : ∀ i v, i < s.cnt → (rd (s.pathArc.set s.cnt xy) i = some v ↔ rd s.pathArc i = some v) := by
      intro i v hi
      rw [rd_set (by omega), if_neg (by omega)]
    have hpa1 : rd (s.pathArc.set s.cnt xy) s.cnt = some xy := by
      rw [rd_set (by omega), if_pos rfl]
    have harcs : ∀ i, i < s.cnt + 1 → ∃ a x y', rd (s.pathArc.set s.cnt xy) i = some a ∧ FragArc f a x y' ∧
        rd (s.pathNode.set (s.cnt + 1) y) i = some x ∧ rd (s.pathNode.set (s.cnt + 1) y) (i + 1) = some y' ∧
        at' s.blocked a = false := by
      intro i hi
      by_cases hic : i = s.cnt
      · subst hic
        exact ⟨xy, x, y, hpa1, hA, (hpn _ _ (Nat.le_refl _)).2 hx, hpn1, h4⟩
      · obtain ⟨a, u, v, g1, g2, g3, g4, g5⟩ := P.arcs i (by omega)
        exact ⟨a, u, v, (hpa i a (by omega)).2 g1, g2, (hpn i u (by omega)).2 g3, (hpn (i + 1) v (by omega)).2 g4, g5⟩
    have hroot : rd (s.pathNode.set (s.cnt + 1) y) 0 = rd s.pathNode 0 := by
      rw [rd_set (by omega), if_neg (by omega)]
    cases hty : at' tgt y with
    | false =>
      simp only [Bool.false_eq_true, if_false]
      obtain ⟨q, hq, hqy⟩ : ∃ q, p < q ∧ rd Q q = some y := by
        rcases F xy x y p hA hp hb0 with h | h
        · rw [hty] at h; cases h
        · exact h
      refine ⟨_, rfl, ⟨by simpa using I.pnl, by simpa using I.pal, I.sl, I.bl, I.mono, I.uns, I.anti, I.val, I.dead⟩,
        ⟨?_, harcs, ?_⟩, ?_, hroot, fun a h => h⟩
      · obtain ⟨r, hr, hr'⟩ := P.root
        exact ⟨r, hroot.trans hr, hr'⟩
      · intro i hi
        simp only at hi ⊢
        by_cases hic : i = s.cnt + 1
        · subst hic
          exact ⟨q, y, hpn1, hqy, by omega⟩
        · obtain ⟨p', v, g1, g2, g3⟩ := P.inq i (by omega)
          exact ⟨p', v, (hpn i v (by omega)).2 g1, g2, g3⟩
      · unfold dfsMeasure
        simp only
        omega
    | true =>
      simp only [if_true]
      obtain ⟨r, hr, hr'⟩ := P.root
      have hinQ : ∀ i a x' y', i < s.cnt + 1 → rd (s.pathArc.set s.cnt xy) i = some a → FragArc f a x' y' →
          rd (s.pathNode.set (s.cnt + 1) y) i = some x' ∧ ∃ p, rd Q p = some x' := by
        intro i a x' y' hi g1 g2
        obtain ⟨a', u, v, k1, k2, k3, k4, k5⟩ := harcs i hi
        rw [g1] at k1; cases k1
        obtain ⟨rfl, rfl⟩ := fragArc_inj g2 k2
        obtain ⟨p', w, m1, m2, _⟩ := P.inq i (by omega)
        have := (hpn i w (by omega)).2 m1
        rw [k3] at this; cases this
        exact ⟨k3, p', m2⟩
      obtain ⟨sat', blocked', es, g1, g2, g3, g4, g5, g6, g7⟩ := augment_spec o (pn := s.pathNode.set (s.cnt + 1) y)
        (pa := s.pathArc.set s.cnt xy) (c := s.cnt + 1) I.sl I.bl I.anti
        (by
          intro i hi
          obtain ⟨a, u, v, k1, k2, k3, k4, k5⟩ := harcs i hi
          obtain ⟨_, p', hp'⟩ := hinQ i a u v hi k1 k2
          have hu : u ∈ Q := List.mem_of_getElem? hp'
          refine ⟨a, u, v, k1, k2, k3, k4, k5, I.uns a u v k2 hu k5, ?_⟩
          rintro rfl
          have hb0' : at' blocked0 a = false := by
            cases h : at' blocked0 a with
            | false => rfl
            | true => rw [I.mono a h] at k5; cases k5
          rcases F a u u p' k2 hp' hb0' with h | ⟨q, h, h'⟩
          · rw [hnt u hu] at h; cases h
          · have := rd_nodup_inj hnd hp' h'
            omega)
        (by
          have key : ∀ i j a, i < j → j < s.cnt + 1 → rd (s.pathArc.set s.cnt xy) i = some a →
              rd (s.pathArc.set s.cnt xy) j = some a → False := by
            intro i j a hij hj k1 k2
            obtain ⟨a', u, v, m1, m2, m3, m4, m5⟩ := harcs i (by omega)
            rw [k1] at m1; cases m1
            obtain ⟨n1, p1, n2⟩ := hinQ i a u v (by omega) k1 m2
            obtain ⟨n3, _⟩ := hinQ j a u v (by omega) k2 m2
            have := pos_lt F hnd hnt I.mono P j (by omega) i p1 p1 u u hij ((hpn i u (by omega)).1 n1) n2
              ((hpn j u (by omega)).1 n3) n2
            omega
          intro i j a hi hj k1 k2
          rcases Nat.lt_trichotomy i j with h | h | h
          · exact (key i j a h hj k1 k2).elim
          · exact h
          · exact (key j i a h hi k2 k1).elim)
        (hroot.trans hr)
      simp only [es, Option.bind_some]
      refine ⟨_, rfl, ⟨by simpa using I.pnl, by simpa using I.pal, g1, g2, ?_, ?_, g3, ?_, ?_⟩, ⟨⟨r, hroot.trans hr, hr'⟩, ?_, ?_⟩,
        ?_, hroot, ?_⟩
      · intro a ha
        exact (g5 a).2 (Or.inl (I.mono a ha))
      · intro a u v hA' hu hbl
        simp only at hbl ⊢
        cases h : at' sat' a with
        | false => rfl
        | true =>
          exfalso
          rcases g4 a h with h' | h'
          · have hb1 : at' s.blocked a = false := by
              cases h2 : at' s.blocked a with
              | false => rfl
              | true => rw [(g5 a).2 (Or.inl h2)] at hbl; cases hbl
            rw [I.uns a u v hA' hu hb1] at h'; cases h'
          · rw [(g5 a).2 (Or.inr h')] at hbl; cases hbl
      · intro S h5 h6
        simp only
        rw [g7 S y hpn1, I.val S h5 h6]
        have i1 : ind S r = 1 := by unfold ind; rw [h5 r hr']; rfl
        have i2 : ind S y = 0 := by unfold ind; rw [h6 y hty]; rfl
        rw [i1, i2]
        push_cast
        omega
      · intro h0
        simp only at h0
        omega
      · intro i hi
        simp only at hi
        omega
      · intro i hi
        simp only at hi
        obtain ⟨p', v, k1, k2, k3⟩ := P.inq i (by omega)
        exact ⟨p', v, (hpn i v (by omega)).2 k1, k2, k3⟩
      · unfold dfsMeasure
        simp only
        rw [← g6, Nat.add_mul, Nat.add_mul]
        have : f.nodeCount + 1 ≤ s.cnt * (f.nodeCount + 1) + 1 * (f.nodeCount + 1) := by omega
        omega
      · intro a ha
        exact (g5 a).2 (Or.inl ha)

end RK
