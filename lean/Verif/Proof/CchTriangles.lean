import Verif.Proof.CchSimple
import Verif.Spec.Triangles
/-! # Helper lemmas for the enumeration of triangles -/
namespace RK
open _root_.Spec (Triangle visit)

theorem triLoop_eq {S : Type} {ha hb : List Nat} {args : Nat × Nat × Nat → Option TriCall} (f : TriCallback S) :
    ∀ {fuel i ie j je : Nat} {r : List (Nat × Nat × Nat)} {l : List TriCall} (s : S),
      joinLoop ha hb fuel i ie j je = some r → r.mapM args = some l →
      triLoop ha hb args f fuel i ie j je s = visit f l s
  | 0, _, _, _, _, _, _, _, h, _ => by simp [joinLoop] at h
  | fuel + 1, i, ie, j, je, r, l, s, h, hm => by
    unfold joinLoop at h
    unfold triLoop
    split at h
    · rename_i hne
      rw [if_pos hne]
      simp only [Option.bind_eq_bind, Option.bind_eq_some_iff] at h
      obtain ⟨x, ex, y, ey, h⟩ := h
      simp only [ex, ey, Option.bind_eq_bind, Option.bind_some]
      split at h
      · rename_i hlt
        rw [if_pos hlt]
        exact triLoop_eq f s h hm
      · rename_i hlt
        rw [if_neg hlt]
        split at h
        · rename_i hgt
          rw [if_pos hgt]
          exact triLoop_eq f s h hm
        · rename_i hgt
          rw [if_neg hgt]
          simp only [Option.bind_eq_some_iff, Option.some.injEq] at h
          obtain ⟨r', hr, rfl⟩ := h
          simp only [List.mapM_cons, Option.bind_eq_bind, Option.bind_eq_some_iff, Option.pure_def,
            Option.some.injEq] at hm
          obtain ⟨u, hu, l', hl', rfl⟩ := hm
          simp only [hu, Option.bind_some, visit]
          rcases hf : f s u with _ | ⟨s', b⟩
          · rfl
          · cases b
            · rfl
            · exact triLoop_eq f s' hr hl'
    · rename_i hne
      rw [if_neg hne]
      cases h
      simp at hm
      subst hm
      rfl

/-- The arcs of a call. -/
def TriCall.tri (u : TriCall) : Tri := ⟨u.bottomArc, u.midArc, u.topArc⟩

theorem Triangle.at' {c : Cch} {u : TriCall} (h : Triangle c u) :
    TriAt c.upTail c.upHead u.tri u.bottomNode u.midNode u.topNode :=
  ⟨h.1, h.2, h.3, h.4, h.5, h.6⟩

theorem triangle_of {c : Cch} {u : TriCall} (h : TriAt c.upTail c.upHead u.tri u.bottomNode u.midNode u.topNode) :
    Triangle c u :=
  ⟨h.1, h.2, h.3, h.4, h.5, h.6⟩

theorem triangle_ext {c : Cch} {u v : TriCall} (hu : Triangle c u) (hv : Triangle c v) (h : u.tri = v.tri) : u = v := by
  obtain ⟨a, b, d, x, y, z⟩ := u
  obtain ⟨a', b', d', x', y', z'⟩ := v
  simp only [TriCall.tri, Tri.mk.injEq] at h
  obtain ⟨rfl, rfl, rfl⟩ := h
  have e1 := hu.bottomTail.symm.trans hv.bottomTail
  have e2 := hu.bottomHead.symm.trans hv.bottomHead
  have e3 := hu.midHead.symm.trans hv.midHead
  simp only [Option.some.injEq] at e1 e2 e3
  subst e1 e2 e3
  rfl

theorem mem_calls {c : Cch} {calls : List TriCall} {l : List Tri} (hm : calls.map TriCall.tri = l)
    (ht : ∀ u ∈ calls, Triangle c u) (u : TriCall) : u ∈ calls ↔ Triangle c u ∧ u.tri ∈ l := by
  subst hm
  constructor
  · intro h
    exact ⟨ht u h, List.mem_map_of_mem h⟩
  · rintro ⟨h1, h2⟩
    obtain ⟨v, hv, e⟩ := List.mem_map.1 h2
    rw [← triangle_ext (ht v hv) h1 e]
    exact hv

theorem mapM_tri {g : Nat × Nat × Nat → Option Tri} {args : Nat × Nat × Nat → Option TriCall}
    (hg : ∀ t T, g t = some T → ∃ u, args t = some u ∧ u.tri = T) :
    ∀ {r : List (Nat × Nat × Nat)} {l : List Tri}, r.mapM g = some l →
      ∃ calls, r.mapM args = some calls ∧ calls.map TriCall.tri = l
  | [], l, h => by simp at h; subst h; exact ⟨[], rfl, rfl⟩
  | t :: r, l, h => by
    simp only [List.mapM_cons, Option.bind_eq_bind, Option.bind_eq_some_iff, Option.pure_def, Option.some.injEq] at h
    obtain ⟨T, hT, l', hl', rfl⟩ := h
    obtain ⟨u, hu, e⟩ := hg t T hT
    obtain ⟨calls, hc, hm⟩ := mapM_tri hg hl'
    refine ⟨u :: calls, ?_, by simp [e, hm]⟩
    simp [hu, hc]

theorem mapM_mem {α β : Type} {g : α → Option β} : ∀ {r : List α} {l : List β}, r.mapM g = some l →
    ∀ u ∈ l, ∃ t ∈ r, g t = some u
  | [], l, h => by simp at h; subst h; simp
  | t :: r, l, h => by
    simp only [List.mapM_cons, Option.bind_eq_bind, Option.bind_eq_some_iff, Option.pure_def, Option.some.injEq] at h
    obtain ⟨T, hT, l', hl', rfl⟩ := h
    intro u hu
    rcases List.mem_cons.1 hu with rfl | hu
    · exact ⟨t, List.mem_cons_self, hT⟩
    · obtain ⟨t', ht', e⟩ := mapM_mem hl' u hu
      exact ⟨t', List.mem_cons_of_mem _ ht', e⟩

/-- Calls sorted by the common node. -/
theorem calls_sorted {ha hb : List Nat} {fuel i ie j je : Nat} {r : List (Nat × Nat × Nat)} {calls : List TriCall}
    {args : Nat × Nat × Nat → Option TriCall} {key : TriCall → Nat} (hr : joinLoop ha hb fuel i ie j je = some r)
    (s : StrictRange ha i ie) (hk : ∀ t u, args t = some u → key u = t.2.2) (hc : r.mapM args = some calls) :
    calls.Pairwise (fun u v => key u < key v) := by
  have hk' := mapM_keys (k := fun t : Nat × Nat × Nat => t.2.2) (k' := key) hk hc
  obtain ⟨h1, h2⟩ := joinLoop_sorted hr s.le
  have h3 : r.Pairwise (fun s t => s.2.2 < t.2.2) := by
    refine h2.imp_of_mem ?_
    intro p q hp hq hpq
    exact s.lt _ _ _ _ (h1 p hp).1.1 hpq (h1 q hq).1.2 (h1 p hp).2 (h1 q hq).2
  have h4 : (r.map fun t => t.2.2).Pairwise (· < ·) := List.pairwise_map.2 h3
  rw [← hk'] at h4
  exact List.pairwise_map.1 h4

variable {n : Nat} {c : Cch}

theorem Cch.GraphOk.order (g : c.GraphOk n) {u : TriCall} (h : Triangle c u) :
    u.bottomNode < u.midNode ∧ u.midNode < u.topNode ∧ u.bottomArc < u.midArc ∧ u.midArc < u.topArc := by
  have h1 := (g.up.up _ _ ⟨_, h.bottomTail, h.bottomHead⟩).1
  have h2 := (g.up.up _ _ ⟨_, h.topTail, h.topHead⟩).1
  refine ⟨h1, h2, ?_, ?_⟩
  · rcases Nat.lt_trichotomy u.bottomArc u.midArc with q | q | q
    · exact q
    · have e := h.bottomHead
      rw [q, h.midHead] at e
      have e' := Option.some.inj e
      omega
    · rcases g.up.sorted.2 _ _ _ _ _ _ q h.midTail h.bottomTail h.midHead h.bottomHead with p | ⟨_, p⟩ <;> omega
  · rcases Nat.lt_trichotomy u.midArc u.topArc with q | q | q
    · exact q
    · have e := h.midTail
      rw [q, h.topTail] at e
      have e' := Option.some.inj e
      omega
    · rcases g.up.sorted.2 _ _ _ _ _ _ q h.topTail h.midTail h.topHead h.midHead with p | ⟨p, _⟩ <;> omega

theorem Cch.GraphOk.verify (g : c.GraphOk n) {u : TriCall} (h : Triangle c u) : c.verifier () u = some ((), true) := by
  obtain ⟨h1, h2, h3, h4⟩ := g.order h
  unfold Cch.verifier
  rw [if_neg (by omega), if_neg (by omega), if_neg (by omega), if_neg (by omega)]
  have r : ∀ {v : List Nat} {i x : Nat}, v[i]? = some x → assertAt v i x = some () := by
    intro v i x e
    have e' : rd v i = some x := e
    simp [assertAt, e']
  simp [r h.1, r h.2, r h.3, r h.4, r h.5, r h.6]

theorem Cch.GraphOk.forallUpper_spec (g : c.GraphOk n) {a x y : Nat} (hx : rd c.upTail a = some x)
    (hy : rd c.upHead a = some y) :
    ∃ l : List TriCall, (∀ u, u ∈ l ↔ Triangle c u ∧ u.bottomArc = a) ∧ l.Pairwise (fun u v => u.topNode < v.topNode) ∧
      ∀ (S : Type) (f : TriCallback S) (s : S), c.forallUpper a f s = visit f l s := by
  obtain ⟨hxy, hyn⟩ := g.up.up x y ⟨a, hx, hy⟩
  have ha := (cLt_range g.up.sorted.pairwise).1 hx
  obtain ⟨L, eL, hL⟩ := upperTriangles_spec g.up hx hy
  have i1 := g.up.idx.2 (x + 1) (by omega)
  have i2 := g.up.idx.2 y (by omega)
  have i3 := g.up.idx.2 (y + 1) (by omega)
  unfold upperTriangles at eL
  simp only [hx, hy, i1, i2, i3, Option.bind_eq_bind, Option.bind_some, Option.bind_eq_some_iff, Option.some.injEq] at eL
  obtain ⟨r, er, rfl⟩ := eL
  have hr := joinLoop_sorted er (by omega)
  have hc : r.mapM (upperArgs x y a) = some (r.map fun t => ⟨a, t.1, t.2.1, x, y, t.2.2⟩) := by
    have : upperArgs x y a = fun t => pure ⟨a, t.1, t.2.1, x, y, t.2.2⟩ := rfl
    rw [this, List.mapM_pure]; rfl
  refine ⟨r.map fun t => ⟨a, t.1, t.2.1, x, y, t.2.2⟩, fun u => ?_, ?_, fun S f s => ?_⟩
  rotate_left
  · exact calls_sorted er ((g.up.sorted.row x).sub (i' := a + 1) (by omega) (by omega) (Nat.le_refl _))
      (fun t u e => by cases e; rfl) hc
  · unfold Cch.forallUpper
    simp only [hx, hy, i1, i2, i3, Option.bind_eq_bind, Option.bind_some]
    exact triLoop_eq f s er hc
  · rw [mem_calls (c := c) (l := r.map fun t => ⟨a, t.1, t.2.1⟩) (by simp [TriCall.tri, Function.comp_def])]
    · constructor
      · rintro ⟨h1, h2⟩
        exact ⟨h1, ((hL _).1 h2).1⟩
      · rintro ⟨h1, h2⟩
        refine ⟨h1, (hL _).2 ⟨h2, u.topNode, ?_⟩⟩
        have e1 := h1.bottomTail
        have e2 := h1.bottomHead
        rw [h2] at e1 e2
        rw [rd_congr_some hx e1, rd_congr_some hy e2]
        exact Triangle.at' h1
    · intro v hv
      obtain ⟨t, ht, rfl⟩ := List.mem_map.1 hv
      obtain ⟨_, z, hz⟩ := (hL ⟨a, t.1, t.2.1⟩).1 (List.mem_map.2 ⟨t, ht, rfl⟩)
      have := rd_congr_some hz.mh (hr.1 t ht).2
      subst this
      exact triangle_of hz

theorem Cch.GraphOk.forallIntermediate_spec (g : c.GraphOk n) {a x y : Nat} (hx : rd c.upTail a = some x)
    (hy : rd c.upHead a = some y) :
    ∃ l : List TriCall, (∀ u, u ∈ l ↔ Triangle c u ∧ u.midArc = a) ∧ l.Pairwise (fun u v => u.midNode < v.midNode) ∧
      ∀ (S : Type) (f : TriCallback S) (s : S), c.forallIntermediate a f s = visit f l s := by
  obtain ⟨hxy, hyn⟩ := g.up.up x y ⟨a, hx, hy⟩
  have ha := (cLt_range g.up.sorted.pairwise).1 hx
  obtain ⟨L, eL, hL⟩ := g.intermediateTriangles_spec hx hy
  have i1 := g.up.idx.2 x (by omega)
  obtain ⟨yb, ye, i2, i3, _⟩ := g.downRow (y := y) hyn
  unfold Cch.intermediateTriangles at eL
  simp only [hx, hy, i1, i2, i3, Option.bind_eq_bind, Option.bind_some, Option.bind_eq_some_iff] at eL
  obtain ⟨r, er, eL⟩ := eL
  have hr := joinLoop_sorted er (by omega)
  obtain ⟨calls, hc, hm⟩ := mapM_tri (g := c.midTri a) (args := c.midArgs x y a) (by
    intro t T hT
    simp only [Cch.midTri, Cch.downUp, Option.bind_eq_bind, Option.bind_eq_some_iff, Option.some.injEq] at hT
    obtain ⟨top, h1, rfl⟩ := hT
    exact ⟨⟨t.1, a, top, x, t.2.2, y⟩, by simp only [Cch.midArgs, h1, Option.bind_eq_bind, Option.bind_some], rfl⟩) eL
  refine ⟨calls, fun u => ?_, ?_, fun S f s => ?_⟩
  rotate_left
  · exact calls_sorted er ((g.up.sorted.row x).sub (e' := a) (Nat.le_refl _) (by omega) (by omega)) (fun t u e => by
      simp only [Cch.midArgs, Option.bind_eq_bind, Option.bind_eq_some_iff, Option.some.injEq] at e
      obtain ⟨_, _, rfl⟩ := e
      rfl) hc
  · unfold Cch.forallIntermediate
    simp only [hx, hy, i1, i2, i3, Option.bind_eq_bind, Option.bind_some]
    exact triLoop_eq f s er hc
  · rw [mem_calls (c := c) hm]
    · constructor
      · rintro ⟨h1, h2⟩
        exact ⟨h1, ((hL _).1 h2).1⟩
      · rintro ⟨h1, h2⟩
        refine ⟨h1, (hL _).2 ⟨h2, u.midNode, ?_⟩⟩
        have e1 := h1.midTail
        have e2 := h1.midHead
        rw [h2] at e1 e2
        rw [rd_congr_some hx e1, rd_congr_some hy e2]
        exact Triangle.at' h1
    · intro v hv
      have hv' : v.tri ∈ L := by rw [← hm]; exact List.mem_map_of_mem hv
      obtain ⟨_, z, hz⟩ := (hL v.tri).1 hv'
      obtain ⟨t, ht, e⟩ := mapM_mem hc v hv
      simp only [Cch.midArgs, Option.bind_eq_bind, Option.bind_eq_some_iff, Option.some.injEq] at e
      obtain ⟨top, _, rfl⟩ := e
      have := rd_congr_some hz.bh (hr.1 t ht).2
      subst this
      exact triangle_of hz

theorem Cch.GraphOk.forallLower_spec (g : c.GraphOk n) {a x y : Nat} (hx : rd c.upTail a = some x)
    (hy : rd c.upHead a = some y) :
    ∃ l : List TriCall, (∀ u, u ∈ l ↔ Triangle c u ∧ u.topArc = a) ∧ l.Pairwise (fun u v => u.bottomNode < v.bottomNode) ∧
      ∀ (S : Type) (f : TriCallback S) (s : S), c.forallLower a f s = visit f l s := by
  obtain ⟨hxy, hyn⟩ := g.up.up x y ⟨a, hx, hy⟩
  obtain ⟨L, eL, hL⟩ := g.lowerTriangles_spec hx hy
  obtain ⟨xb, xe, i0, i1, _, _, s1, _⟩ := g.downRow (y := x) (by omega)
  obtain ⟨yb, ye, i2, i3, _⟩ := g.downRow (y := y) hyn
  unfold Cch.lowerTriangles at eL
  simp only [i0, i1, i2, i3, Option.bind_eq_bind, Option.bind_some, Option.bind_eq_some_iff] at eL
  obtain ⟨r, er, eL⟩ := eL
  have hl : ∀ {q : List (Nat × Nat × Nat)} {M : List (Tri × Nat)}, q.mapM (c.lowTri a) = some M →
      ∃ calls, q.mapM (c.lowArgs x y a) = some calls ∧ calls.map (fun u => (u.tri, u.bottomNode)) = M ∧
        ∀ u ∈ calls, u.midNode = x ∧ u.topNode = y := by
    intro q
    induction q with
    | nil => intro M h; simp at h; subst h; exact ⟨[], rfl, rfl, by simp⟩
    | cons t q ih =>
      intro M h
      simp only [List.mapM_cons, Option.bind_eq_bind, Option.bind_eq_some_iff, Option.pure_def, Option.some.injEq] at h
      obtain ⟨T, hT, M', hM', rfl⟩ := h
      obtain ⟨calls, h1, h2, h3⟩ := ih hM'
      simp only [Cch.lowTri, Cch.downUp, Option.bind_eq_bind, Option.bind_eq_some_iff, Option.some.injEq] at hT
      obtain ⟨b, k1, m, k2, rfl⟩ := hT
      refine ⟨⟨b, m, a, t.2.2, x, y⟩ :: calls, ?_, by simp [TriCall.tri, ← h2], ?_⟩
      · simp [Cch.lowArgs, k1, k2, h1]
      · intro u hu
        rcases List.mem_cons.1 hu with rfl | hu
        · exact ⟨rfl, rfl⟩
        · exact h3 u hu
  obtain ⟨calls, hc, hm, hn⟩ := hl eL
  have htri : ∀ v ∈ calls, Triangle c v ∧ v.topArc = a := by
    intro v hv
    have hv' : (v.tri, v.bottomNode) ∈ L := by rw [← hm]; exact List.mem_map.2 ⟨v, hv, rfl⟩
    obtain ⟨h1, h2⟩ := (hL _ _).1 hv'
    refine ⟨triangle_of ?_, h1⟩
    rw [(hn v hv).1, (hn v hv).2]
    exact h2
  refine ⟨calls, fun u => ⟨htri u, ?_⟩, ?_, fun S f s => ?_⟩
  rotate_left
  · exact calls_sorted er s1 (fun t u e => by
      simp only [Cch.lowArgs, Option.bind_eq_bind, Option.bind_eq_some_iff, Option.some.injEq] at e
      obtain ⟨_, _, _, _, rfl⟩ := e
      rfl) hc
  · unfold Cch.forallLower
    simp only [hx, hy, i0, i1, i2, i3, Option.bind_eq_bind, Option.bind_some]
    exact triLoop_eq f s er hc
  · rintro ⟨h1, h2⟩
    have e1 := h1.topTail
    have e2 := h1.topHead
    rw [h2] at e1 e2
    have hu : (u.tri, u.bottomNode) ∈ L := by
      refine (hL _ _).2 ⟨h2, ?_⟩
      rw [rd_congr_some hx e1, rd_congr_some hy e2]
      exact Triangle.at' h1
    rw [← hm] at hu
    obtain ⟨v, hv, e⟩ := List.mem_map.1 hu
    rw [← triangle_ext (htri v hv).1 h1 (congrArg Prod.fst e)]
    exact hv

theorem visit_true {S α : Type} {f : S → α → Option (S × Bool)} {s : S} : ∀ {l : List α},
    (∀ u ∈ l, f s u = some (s, true)) → visit f l s = some (s, true)
  | [], _ => rfl
  | u :: l, h => by
    unfold visit
    rw [h u List.mem_cons_self]
    exact visit_true fun v hv => h v (List.mem_cons_of_mem _ hv)

end RK
