import Verif.Model.RankQuery
import Verif.Proof.Tools
/-! Helper lemmas for Dijkstra ranks. -/
namespace RK
open Spec Props

section
variable {n : Nat} {fo tail hd wt : List Nat} {src : Nat}

/-- Rows of one search: all are right, and ranks up to `r` are there. -/
structure RowsUpTo (A : ArcRel) (s r : Nat) (before rows : List RankQuery) : Prop where
  right : ∃ new, rows = before ++ new ∧ (∀ q ∈ new, q.source = s ∧ HasRank A q) ∧ new.map RankQuery.rank = List.range' 6 new.length ∧ new.length = r - 6

theorem rankLoop_spec {before : List RankQuery} (hno : ∀ x k a y w, IsDist (openArcs fo hd wt) src x k → openArcs fo hd wt a x y w → k + w < 2 ^ 32) :
    ∀ {fuel : Nat} {d : Dijkstra} {l : List (Nat × Nat)} {r : Nat} {rows : List RankQuery},
    DRep d ⟨scalarGraph n fo tail hd wt, [(src, 0)], l⟩ → n < fuel + l.length → l.length < 2 ^ r → (r = 0 ∨ 2 ^ (r - 1) ≤ l.length) →
    RowsUpTo (openArcs fo hd wt) src r before rows →
    ∃ d' S' r' rows', rankLoop wt src fuel d l.length r rows = some (d', rows') ∧ DRep d' S' ∧ S'.graph = scalarGraph n fo tail hd wt ∧
      RowsUpTo (openArcs fo hd wt) src r' before rows' ∧ ∀ k, ReachesMany (openArcs fo hd wt) src (2 ^ k) → k < r'
  | 0, d, l, r, rows, h, hf, _, _, _ => by
    have := h.settled_le
    simp only [scalarGraph] at this
    omega
  | fuel + 1, d, l, r, rows, h, hf, hr1, hr2, hrows => by
    unfold rankLoop
    cases hfin : d.isFinished with
    | true =>
      simp only [if_true]
      refine ⟨d, _, r, rows, rfl, h, rfl, hrows, ?_⟩
      rintro k ⟨nodes, hnd, hlen, hreach⟩
      have hsub : nodes ⊆ l.map Prod.fst := by
        intro x hx
        obtain ⟨p, k', hw⟩ := hreach x hx
        exact isSettled_iff.1 (h.finished_iff.1 hfin x k' (scalar_arrives.2 ⟨p, hw⟩))
      have := (hnd.subperm hsub).length_le
      rw [hlen, List.length_map] at this
      exact (Nat.pow_lt_pow_iff_right (by omega : 1 < 2)).1 (by omega : 2 ^ k < 2 ^ r)
    | false =>
      simp only [Bool.false_eq_true, if_false]
      have hne : ∃ y k, (⟨scalarGraph n fo tail hd wt, [(src, 0)], l⟩ : Search).Arrives y k ∧ ¬ (⟨scalarGraph n fo tail hd wt, [(src, 0)], l⟩ : Search).IsSettled y := by
        by_contra hc
        have : d.isFinished = true := h.finished_iff.2 (by
          intro y k ha
          by_contra hs
          exact hc ⟨y, k, ha, hs⟩)
        rw [hfin] at this; cases this
      obtain ⟨d', x, k, e, h1, h2, h3, h4, h'⟩ := h.settle hne (by
        intro x k a y w hk ha
        exact hno x k a y w (scalar_distance.1 hk) (arc_scalar.1 ha))
      have e' : d.settle (scalarGetWeight wt) = some (d', x, k) := e
      have hle := h'.settled_le
      simp only [scalarGraph, List.length_append, List.length_singleton] at hle
      have hn30 : n ≤ 2 ^ 30 := h.wf.nodes
      have hr32 : r < 32 := by
        rcases hr2 with hr2 | hr2
        · omega
        · have : 2 ^ (r - 1) < 2 ^ 31 := by
            have : (2 : Nat) ^ 30 < 2 ^ 31 := by decide
            omega
          have := (Nat.pow_lt_pow_iff_right (by omega : 1 < 2)).1 this
          omega
      simp only [e', Option.bind_eq_bind, Option.bind_some, decide_eq_true hr32, check_true]
      have hl' : (l ++ [(x, k)]).length = l.length + 1 := by simp
      by_cases hnr : l.length + 1 = 2 ^ r
      · rw [if_pos hnr]
        have hrows' : RowsUpTo (openArcs fo hd wt) src (r + 1) before (if r > 5 then rows ++ [⟨src, x, r, k⟩] else rows) := by
          obtain ⟨new, rfl, g1, g2, g3⟩ := hrows.right
          by_cases hr5 : r > 5
          · rw [if_pos hr5]
            refine ⟨new ++ [⟨src, x, r, k⟩], by rw [List.append_assoc], ?_, ?_, by rw [List.length_append, g3, List.length_singleton]; omega⟩
            · intro q hq
              rcases List.mem_append.1 hq with hq | hq
              · exact g1 q hq
              · rw [List.mem_singleton] at hq
                subst hq
                refine ⟨rfl, scalar_distance.1 h2, (l ++ [(x, k)]).map Prod.fst, h'.nodup, by rw [List.length_map, hl', hnr], by simp, ?_, ?_⟩
                · intro y hy
                  obtain ⟨⟨y', k'⟩, hp, rfl⟩ := List.mem_map.1 hy
                  have hd' := (h'.dist _ hp).2.1
                  refine ⟨k', scalar_distance.1 hd', ?_⟩
                  rcases List.mem_append.1 hp with hp | hp
                  · exact h3 y' k' hp
                  · rw [List.mem_singleton] at hp
                    injection hp with _ hp
                    exact Nat.le_of_eq hp
                · intro y k' hk' hlt
                  by_contra hc
                  have hns : ¬ (⟨scalarGraph n fo tail hd wt, [(src, 0)], l⟩ : Search).IsSettled y := by
                    intro hs
                    apply hc
                    rw [List.map_append]
                    exact List.mem_append_left _ (isSettled_iff.1 hs)
                  obtain ⟨p, hw⟩ := hk'.1
                  have := h4 y k' (scalar_arrives.2 ⟨p, hw⟩) hns
                  simp only at hlt
                  omega
            · rw [List.map_append, g2, List.length_append, List.length_singleton, List.range'_1_concat, g3]
              simp only [List.map_cons, List.map_nil]
              rw [show 6 + (r - 6) = r by omega]
          · rw [if_neg hr5]
            exact ⟨new, rfl, g1, g2, by omega⟩
        have := rankLoop_spec hno (fuel := fuel) (d := d') (l := l ++ [(x, k)]) (r := r + 1) (before := before) h' (by rw [hl']; omega)
          (by rw [hl', hnr, Nat.pow_succ]; have := Nat.two_pow_pos r; omega) (Or.inr (by rw [hl', hnr]; exact Nat.le_refl _)) hrows'
        rw [hl'] at this
        exact this
      · rw [if_neg hnr]
        have := rankLoop_spec hno (fuel := fuel) (d := d') (l := l ++ [(x, k)]) (r := r) (before := before) h' (by rw [hl']; omega)
          (by rw [hl']; omega) (by rw [hl']; omega) hrows
        rw [hl'] at this
        exact this

theorem rankQueriesFrom_spec : ∀ {drawn : List Nat} {d : Dijkstra} {S : Search} {rows : List RankQuery}, DRep d S →
    S.graph = scalarGraph n fo tail hd wt → (∀ s ∈ drawn, s < n) →
    (∀ s ∈ drawn, ∀ x k a y w, IsDist (openArcs fo hd wt) s x k → openArcs fo hd wt a x y w → k + w < 2 ^ 32) →
    ∃ d' new, rankQueriesFrom n wt drawn d rows = some (d', rows ++ new) ∧ RankRows (openArcs fo hd wt) drawn new
  | [], d, S, rows, _, _, _, _ => ⟨d, [], by simp [rankQueriesFrom], [], rfl, rfl, by simp⟩
  | s :: drawn, d, S, rows, h, hg, hlt, hno => by
    obtain ⟨d1, e1, h1⟩ := h.reset
    rw [hg] at h1
    obtain ⟨d2, e2, h2⟩ := h1.addSource (id := s) (time := 0) (hlt s (by simp)) rfl (by simp [Search.fresh])
    obtain ⟨d3, S', r', rows', e3, h3, g3, hrows, hmany⟩ := rankLoop_spec (n := n) (fo := fo) (tail := tail) (hd := hd) (wt := wt) (src := s)
      (before := rows) (hno s (by simp)) (fuel := n + 1) (l := []) (r := 0) (rows := rows) h2 (by simp) (by simp) (Or.inl rfl)
      ⟨[], by simp, by simp, by simp, by simp⟩
    obtain ⟨new1, rfl, a1, a2, a3⟩ := hrows.right
    obtain ⟨d4, new2, e4, blocks, rfl, b1, b2⟩ := rankQueriesFrom_spec (drawn := drawn) (rows := rows ++ new1) h3 g3
      (fun s hs => hlt s (by simp [hs])) (fun s hs => hno s (by simp [hs]))
    refine ⟨d4, new1 ++ blocks.flatten, ?_, new1 :: blocks, by simp, by simp [b1], ?_⟩
    · unfold rankQueriesFrom
      simp only [List.length_nil] at e3
      simp only [e1, e2, e3, e4, Option.bind_eq_bind, Option.bind_some, List.append_assoc]
    · intro i s' block hs hb
      cases i with
      | zero =>
        simp only [List.getElem?_cons_zero, Option.some.injEq] at hs hb
        subst hs
        subst hb
        refine ⟨a1, a2, fun r h6 hm => ?_⟩
        have := hmany r hm
        omega
      | succ i =>
        simp only [List.getElem?_cons_succ] at hs hb
        exact b2 i s' block hs hb

end
end RK
