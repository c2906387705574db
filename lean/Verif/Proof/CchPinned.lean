import Verif.Proof.CchSearch
/-! The searches to pinned nodes. -/
namespace RK
open Spec

theorem pushStack_spec {L d : List Nat} {n : Nat} (hl : d.length = n) (hL : L.length ≤ n) :
    ∃ s, forEach L (d, 0) CchHalf.pushStack = some (s, L.length) ∧ s.length = n ∧
      (∀ i x, rd L i = some x → rd s i = some x) ∧ ∀ i, L.length ≤ i → rd s i = rd d i := by
  obtain ⟨⟨s, k⟩, e, g1, g2, g3, g4⟩ := forEach_inv (f := CchHalf.pushStack)
    (fun pre (s : List Nat × Nat) => s.2 = pre.length ∧ s.1.length = n ∧ (∀ i x, rd pre i = some x → rd s.1 i = some x) ∧
      ∀ i, pre.length ≤ i → rd s.1 i = rd d i) L [] (d, 0)
    ⟨rfl, hl, (fun i x h => by simp [rd] at h), fun i _ => rfl⟩
    (by
      rintro pre x post ⟨s, k⟩ hsplit _ ⟨g1, g2, g3, g4⟩
      have hk : k = pre.length := g1
      subst hk
      have g2' : s.length = n := g2
      have hlen : pre.length < n := by
        have : L.length = pre.length + (post.length + 1) := by
          rw [List.nil_append] at hsplit; rw [hsplit]; simp
        omega
      unfold CchHalf.pushStack
      simp only [wr_lt (v := s) (x := x) (show pre.length < s.length by omega), Option.bind_eq_bind, Option.bind_some]
      refine ⟨_, rfl, by simp, by simpa using g2', ?_, ?_⟩
      · intro i y hi
        rw [rd_set (by omega)]
        rcases rd_append.1 hi with hi | ⟨h1, h2⟩
        · rw [if_neg (by have := rd_some_lt hi; omega)]
          exact g3 i y hi
        · have := rd_some_lt h2
          simp only [List.length_singleton] at this
          have hi0 : i = pre.length := by omega
          subst hi0
          rw [if_pos rfl]
          rw [Nat.sub_self] at h2
          exact h2
      · intro i hi
        simp only [List.length_append, List.length_singleton] at hi
        rw [rd_set (by omega), if_neg (by omega)]
        exact g4 i (by omega))
  rw [List.nil_append] at g1 g3 g4
  have g1' : k = L.length := g1
  subst g1'
  exact ⟨s, e, g2, g3, g4⟩

theorem relaxIn_spec {n : Nat} {c : Cch} {wv : List Nat} {W : Nat → Nat} (h : UpCtx n c wv W)
    {d : List Nat} {D : Nat → Nat} (hd : Is d n D) (hle : ∀ y, y < n → D y ≤ infWeight) {x : Nat} (hx : x < n) :
    ∃ d' v, CchHalf.relaxIn c.upFirstOut c.upHead wv d x = some d' ∧ Is d' n (setAt D x v) ∧ v ≤ D x ∧
      (∀ a y, rd c.upTail a = some x → rd c.upHead a = some y → v ≤ D y + W a) ∧
      (v = D x ∨ ∃ a y, rd c.upTail a = some x ∧ rd c.upHead a = some y ∧ v = D y + W a) := by
  have hidx := h.up.idx.2
  have hsort := h.up.sorted.pairwise
  unfold CchHalf.relaxIn
  simp only [hidx x (by omega), hidx (x + 1) (by omega), Option.bind_eq_bind, Option.bind_some]
  obtain ⟨d', e, v, g1, g2, g3, g4⟩ := forRange_inv (lo := cLt c.upTail x) (hi := cLt c.upTail (x + 1)) (s := d)
    (f := CchHalf.relaxInArc c.upHead wv x)
    (fun k s => ∃ v, Is s n (setAt D x v) ∧ v ≤ D x ∧
      (∀ a y, a < k → rd c.upTail a = some x → rd c.upHead a = some y → v ≤ D y + W a) ∧
      (v = D x ∨ ∃ a y, rd c.upTail a = some x ∧ rd c.upHead a = some y ∧ v = D y + W a))
    (cLt_mono c.upTail (by omega))
    ⟨D x, by rw [setAt_self]; exact hd, Nat.le_refl _,
      fun a y ha ht _ => by have := ((cLt_range hsort).1 ht).1; omega, Or.inl rfl⟩
    (by
      rintro k d hk1 hk2 ⟨v, g1, g2, g3, g4⟩
      have hkt := (cLt_range hsort).2 ⟨hk1, hk2⟩
      have hkl := rd_some_lt hkt
      obtain ⟨y, hy⟩ := rd_isSome (v := c.upHead) (i := k) (by rw [← h.up.sorted.1]; exact hkl)
      have hxy := h.up.up x y ⟨k, hkt, hy⟩
      have hyx : y ≠ x := by omega
      have ha : add32 (D y) (W k) = D y + W k := add32_le (hle y hxy.2) (h.le k hkl)
      have r1 : rd d y = some (D y) := by rw [g1.2 y hxy.2, setAt_other _ _ hyx]
      have r2 : rd d x = some v := by rw [g1.2 x hx, setAt_same]
      unfold CchHalf.relaxInArc
      simp only [hy, r1, r2, h.isW.2 k hkl, ha, Option.bind_eq_bind, Option.bind_some]
      by_cases hlt : D y + W k < v
      · rw [if_pos hlt]
        obtain ⟨d', e1, hd'⟩ := g1.wr hx (D y + W k)
        rw [setAt_setAt] at hd'
        refine ⟨d', e1, _, hd', by omega, ?_, Or.inr ⟨k, y, hkt, hy, rfl⟩⟩
        intro a z ha' hat haz
        by_cases hak : a = k
        · subst hak; rw [rd_congr_some haz hy]
        · have := g3 a z (by omega) hat haz; omega
      · rw [if_neg hlt]
        refine ⟨d, rfl, v, g1, g2, ?_, g4⟩
        intro a z ha' hat haz
        by_cases hak : a = k
        · subst hak; rw [rd_congr_some haz hy]; omega
        · exact g3 a z (by omega) hat haz)
  refine ⟨d', v, e, g1, g2, ?_, g4⟩
  intro a y hat hay
  exact g3 a y ((cLt_range hsort).1 hat).2 hat hay

/-- The labels while the last part `done` of the search space of the pinned nodes has been processed; `DF` are the labels
before. -/
structure PInv (n : Nat) (tail head : List Nat) (W : Nat → Nat) (DF : Nat → Nat) (done : List Nat) (D : Nat → Nat) : Prop where
  le : ∀ x, D x ≤ DF x
  other : ∀ x, x ∉ done → D x = DF x
  sound : ∀ x, x < n → D x < infWeight → ∃ p l, RWalk (UpRel tail head W) x p l ∧ p < n ∧ D x = DF p + l
  low : ∀ x ∈ done, ∀ a y, rd tail a = some x → rd head a = some y → D x ≤ D y + W a

/-- Search spaces are closed under up arcs. -/
theorem Topo.closed {n : Nat} {c : Cch} {wv : List Nat} {W : Nat → Nat} (h : UpCtx n c wv W) {L : List Nat}
    (hL : Topo c.parent L) : ∀ x ∈ L, ∀ y, HasArc c.upTail c.upHead x y → y ∈ L := by
  intro x hx y hxy
  obtain ⟨pre, post, rfl⟩ := List.append_of_mem hx
  exact List.mem_append_right _ (List.mem_cons_of_mem _ (h.later x y post hL.suffix hxy))

theorem popStack_spec {n : Nat} {c : Cch} {wv : List Nat} {W : Nat → Nat} (h : UpCtx n c wv W) {DF : Nat → Nat}
    (hDF : ∀ x, x < n → DF x ≤ infWeight) {L : List Nat} (hL : Topo c.parent L) (hLn : ∀ x ∈ L, x < n) :
    ∀ (k : Nat) (s d : List Nat) (D : Nat → Nat), k ≤ L.length → s.length = n →
      (∀ i x, i < k → rd L i = some x → rd s i = some x) → (∀ i, k ≤ i → i < n → rd s i = some infWeight) → L.length ≤ n →
      Is d n D → PInv n c.upTail c.upHead W DF (L.drop k) D →
      ∃ s' d' D', CchHalf.popStack c wv k s d = some (s', d') ∧ s' = List.replicate n infWeight ∧ Is d' n D' ∧
        PInv n c.upTail c.upHead W DF L D'
  | 0, s, d, D, _, h2, _, h4, _, h6, h7 => by
    refine ⟨s, d, D, rfl, ?_, h6, by simpa using h7⟩
    apply list_ext_rd
    · simp [h2]
    · intro i hi
      rw [h4 i (Nat.zero_le _) (by omega), rd_replicate (by omega)]
  | k + 1, s, d, D, h1, h2, h3, h4, h5, h6, h7 => by
    obtain ⟨x, hx⟩ := rd_isSome (v := L) (i := k) (by omega)
    have hxn := hLn x (mem_iff_rd.2 ⟨k, hx⟩)
    have hle : ∀ y, y < n → D y ≤ infWeight := fun y hy => Nat.le_trans (h7.le y) (hDF y hy)
    obtain ⟨d', v, e, g1, g2, g3, g4⟩ := relaxIn_spec h h6 hle hxn
    have hdrop : L.drop k = x :: L.drop (k + 1) := by
      obtain ⟨hk, hx'⟩ := rd_eq_some.1 hx
      rw [List.drop_eq_getElem_cons hk, hx']
    have htopo : Topo c.parent (x :: L.drop (k + 1)) := by
      rw [← hdrop]
      have : L = L.take k ++ L.drop k := (List.take_append_drop k L).symm
      rw [this] at hL
      exact hL.suffix
    have hxnot : x ∉ L.drop (k + 1) := by
      have := htopo.nodup
      exact (List.nodup_cons.1 this).1
    have hlater : ∀ a y, rd c.upTail a = some x → rd c.upHead a = some y → y ∈ L.drop (k + 1) := fun a y q1 q2 =>
      h.later x y _ htopo ⟨a, q1, q2⟩
    have hinv : PInv n c.upTail c.upHead W DF (L.drop k) (setAt D x v) := by
      rw [hdrop]
      refine ⟨?_, ?_, ?_, ?_⟩
      · intro y
        by_cases hy : y = x
        · subst hy; rw [setAt_same]; have := h7.le y; omega
        · rw [setAt_other _ _ hy]; exact h7.le y
      · intro y hy
        rw [setAt_other _ _ (fun hh => hy (by simp [hh]))]
        exact h7.other y (fun hh => hy (List.mem_cons_of_mem _ hh))
      · intro y hy hlt
        by_cases hyx : y = x
        · subst hyx
          rw [setAt_same] at hlt ⊢
          rcases g4 with g4 | ⟨a, z, q1, q2, q3⟩
          · rw [g4] at hlt ⊢
            exact h7.sound y hy hlt
          · obtain ⟨p, l, r1, r2, r3⟩ := h7.sound z (h.up.up y z ⟨a, q1, q2⟩).2 (by omega)
            exact ⟨p, W a + l, .cons ⟨a, q1, q2, rfl⟩ r1, r2, by omega⟩
        · rw [setAt_other _ _ hyx] at hlt ⊢
          exact h7.sound y hy hlt
      · intro y hy a z q1 q2
        rcases List.mem_cons.1 hy with rfl | hy
        · have hz := hlater a z q1 q2
          have hzy : z ≠ y := by intro hzy; rw [hzy] at hz; exact hxnot hz
          rw [setAt_same, setAt_other _ _ hzy]
          exact g3 a z q1 q2
        · have hyx : y ≠ x := fun hh => hxnot (hh ▸ hy)
          have hzx : z ≠ x := by
            intro hzx
            have : Topo c.parent (L.drop (k + 1)) := Topo.suffix (pre := [x]) htopo
            have hz := this.closed h y hy z ⟨a, q1, q2⟩
            rw [hzx] at hz
            exact hxnot hz
          rw [setAt_other _ _ hyx, setAt_other _ _ hzx]
          exact h7.low y hy a z q1 q2
    obtain ⟨s', d'', D'', e', r1, r2, r3⟩ := popStack_spec h hDF hL hLn k (s.set k infWeight) d' (setAt D x v) (by omega)
      (by simpa using h2)
      (fun i y hi hy => by rw [rd_set (by omega), if_neg (by omega)]; exact h3 i y (by omega) hy)
      (fun i hi hin => by
        rw [rd_set (by omega)]
        by_cases hik : i = k
        · rw [if_pos hik]
        · rw [if_neg hik]; exact h4 i (by omega) hin) h5 g1 hinv
    refine ⟨s', d'', D'', ?_, r1, r2, r3⟩
    have hs := h3 k x (by omega) hx
    have hw : wr s k infWeight = some (s.set k infWeight) := wr_lt (by omega)
    show (rd s k).bind _ = _
    rw [hs]
    simp only [Option.bind_some, hw, e, Option.bind_eq_bind, e']

theorem PInv.complete {n : Nat} {c : Cch} {wv : List Nat} {W : Nat → Nat} (h : UpCtx n c wv W) {R : ArcR}
    (hR : ∀ x y v, R x y v → ∃ a, rd c.upTail a = some x ∧ rd c.upHead a = some y ∧ W a ≤ v)
    {DF D : Nat → Nat} {L : List Nat} (hup : ∀ x ∈ L, ∀ y, HasArc c.upTail c.upHead x y → y ∈ L)
    (hi : PInv n c.upTail c.upHead W DF L D) {x p l : Nat} (hw : RWalk R x p l) (hx : x ∈ L) : D x ≤ DF p + l := by
  induction hw with
  | nil x => exact hi.le x
  | cons ha _ ih =>
    obtain ⟨a, h1, h2, h3⟩ := hR _ _ _ ha
    have hy := hup _ hx _ ⟨a, h1, h2⟩
    have := ih hy
    have := hi.low _ hx a _ h1 h2
    omega

end RK
