import Verif.Proof.CchMetric
import Verif.Proof.IdSetQueue
/-! Helper lemmas: partial customization. -/
namespace RK
open Spec BitVector

/-- `v` is the smallest of the candidates `P`, at most `inf_weight`. -/
def MinOf (P : Nat → Prop) (v : Nat) : Prop := v ≤ infWeight ∧ (∀ s, P s → v ≤ s) ∧ (v = infWeight ∨ P v)

theorem MinOf.congr {P Q : Nat → Prop} {v : Nat} (h : MinOf P v) (hpq : ∀ s, P s ↔ Q s) : MinOf Q v :=
  ⟨h.1, fun s hs => h.2.1 s ((hpq s).2 hs), h.2.2.imp id (hpq v).1⟩

/-- The candidates for the forward weight of the arc `a` from `x` to `y`. -/
def CandF (tail head : List Nat) (A : ArcRel) (f b : Nat → Nat) (a x y s : Nat) : Prop :=
  (∃ i, A i x y s) ∨ ∃ T z, T.top = a ∧ TriAt tail head T z x y ∧ s = b T.bottom + f T.mid

/-- The candidates for the backward weight. -/
def CandB (tail head : List Nat) (A : ArcRel) (f b : Nat → Nat) (a x y s : Nat) : Prop :=
  (∃ i, A i y x s) ∨ ∃ T z, T.top = a ∧ TriAt tail head T z x y ∧ s = f T.bottom + b T.mid

/-- The weights of the arc `a` are the smallest candidates. -/
def Cons (tail head : List Nat) (A : ArcRel) (f b : Nat → Nat) (a : Nat) : Prop :=
  ∀ x y, rd tail a = some x → rd head a = some y →
    MinOf (CandF tail head A f b a x y) (f a) ∧ MinOf (CandB tail head A f b a x y) (b a)

theorem cinv_of_cons {n : Nat} {fo tail head : List Nat} (u : UpOk n fo head tail) {A : ArcRel} {f b : Nat → Nat}
    (h : ∀ a, a < tail.length → Cons tail head A f b a) : CusInv tail head A (fun _ => True) f b := by
  have hlen := u.sorted.1
  have hup : ∀ {T : Tri} {bn mn tn : Nat}, TriAt tail head T bn mn tn → bn < mn := fun hT =>
    (u.up _ _ ⟨_, hT.bt, hT.bh⟩).1
  refine ⟨?_, ?_, ?_, ?_⟩
  · intro a ha
    obtain ⟨x, hx⟩ := rd_isSome (v := tail) ha
    obtain ⟨y, hy⟩ := rd_isSome (v := head) (i := a) (by omega)
    exact ⟨(h a ha x y hx hy).1.1, (h a ha x y hx hy).2.1⟩
  · intro a x y hx hy i w
    have hc := h a (rd_some_lt hx) x y hx hy
    exact ⟨fun hA => hc.1.2.1 w (Or.inl ⟨i, hA⟩), fun hA => hc.2.2.1 w (Or.inl ⟨i, hA⟩)⟩
  · have key : ∀ (k a x y : Nat), x < k → rd tail a = some x → rd head a = some y →
        (f a < infWeight → ∃ p, InnerWalk A (fun z => z < x) x p y (f a)) ∧
        (b a < infWeight → ∃ p, InnerWalk A (fun z => z < x) y p x (b a)) := by
      intro k
      induction k with
      | zero => intro a x y hk; exact absurd hk (Nat.not_lt_zero _)
      | succ k ih =>
        intro a x y hk hx hy
        have hc := h a (rd_some_lt hx) x y hx hy
        constructor
        · intro hlt
          rcases hc.1.2.2 with he | ⟨i, hi⟩ | ⟨T, z, rfl, hT, hs⟩
          · omega
          · exact ⟨_, .edge hi⟩
          · have hzx := hup hT
            obtain ⟨p1, w1⟩ := (ih _ z x (by omega) hT.bt hT.bh).2 (by omega)
            obtain ⟨p2, w2⟩ := (ih _ z y (by omega) hT.mt hT.mh).1 (by omega)
            rw [hs]
            exact ⟨_, innerWalk_append (innerWalk_lt w1 (by omega)) hzx (innerWalk_lt w2 (by omega))⟩
        · intro hlt
          rcases hc.2.2.2 with he | ⟨i, hi⟩ | ⟨T, z, rfl, hT, hs⟩
          · omega
          · exact ⟨_, .edge hi⟩
          · have hzx := hup hT
            obtain ⟨p1, w1⟩ := (ih _ z x (by omega) hT.bt hT.bh).1 (by omega)
            obtain ⟨p2, w2⟩ := (ih _ z y (by omega) hT.mt hT.mh).2 (by omega)
            rw [hs, Nat.add_comm]
            exact ⟨_, innerWalk_append (innerWalk_lt w2 (by omega)) hzx (innerWalk_lt w1 (by omega))⟩
    intro a x y hx hy
    exact key (x + 1) a x y (by omega) hx hy
  · intro T x y z hT _
    have hc := h T.top (rd_some_lt hT.tt) y z hT.tt hT.th
    exact ⟨hc.1.2.1 _ (Or.inr ⟨T, x, rfl, hT, rfl⟩), hc.2.2.1 _ (Or.inr ⟨T, x, rfl, hT, rfl⟩)⟩

/-- A walk is one arc or can be split at its highest inner node. -/
theorem innerWalk_top {A : ArcRel} : ∀ {r x y l : Nat} {p : List Nat}, InnerWalk A (fun z => z < r) x p y l →
    (∃ i, A i x y l) ∨ ∃ q, q < r ∧ ∃ p1 l1 p2 l2, InnerWalk A (fun z => z < q) x p1 q l1 ∧
      InnerWalk A (fun z => z < q) q p2 y l2 ∧ l1 + l2 ≤ l
  | 0, x, y, l, p, h => by
    cases h with
    | edge he => exact Or.inl ⟨_, he⟩
    | step _ hz _ => exact absurd hz (Nat.not_lt_zero _)
  | r + 1, x, y, l, p, h => by
    rcases innerWalk_split h with h | ⟨p1, l1, p2, l2, h1, h2, h3⟩
    · rcases innerWalk_top h with h | ⟨q, hq, hr⟩
      · exact Or.inl h
      · exact Or.inr ⟨q, by omega, hr⟩
    · exact Or.inr ⟨r, by omega, p1, l1, p2, l2, h1, h2, h3⟩

theorem cons_of_cinv {n : Nat} {fo tail head : List Nat} (u : UpOk n fo head tail) {A : ArcRel} {f b : Nat → Nat}
    (h : CusInv tail head A (fun _ => True) f b)
    (keep : ∀ x y, x < y → InnerPath (fun x y => ∃ i w, A i x y w) (fun z => z < x) x y ∨
      InnerPath (fun x y => ∃ i w, A i x y w) (fun z => z < x) y x → HasArc tail head x y) (a : Nat) :
    Cons tail head A f b a := by
  intro x y hx hy
  have hxy := (u.up x y ⟨a, hx, hy⟩).1
  have comp := h.complete keep
  have hle := h.le a (rd_some_lt hx)
  have hs := h.sound a x y hx hy
  have hb := h.base a x y hx hy
  refine ⟨⟨hle.1, ?_, ?_⟩, ⟨hle.2, ?_, ?_⟩⟩
  · rintro s (⟨i, hi⟩ | ⟨T, z, rfl, hT, rfl⟩)
    · exact (hb i s).1 hi
    · exact (h.done T z x y hT trivial).1
  · rcases Nat.lt_or_ge (f a) infWeight with hlt | hge
    · obtain ⟨p, hp⟩ := hs.1 hlt
      rcases innerWalk_top hp with he | ⟨q, hq, p1, l1, p2, l2, w1, w2, hl⟩
      · exact Or.inr (Or.inl he)
      · obtain ⟨c1, c1t, c1h, c1l⟩ := (comp q x q p1 l1 (by omega) (Nat.le_refl _) (by omega) w1).2 hq
        obtain ⟨c2, c2t, c2h, c2l⟩ := (comp q q y p2 l2 (Nat.le_refl _) (by omega) (by omega) w2).1 (by omega)
        have hT : TriAt tail head ⟨c1, c2, a⟩ q x y := ⟨c1t, c1h, c2t, c2h, hx, hy⟩
        have hd := (h.done _ q x y hT trivial).1
        refine Or.inr (Or.inr ⟨⟨c1, c2, a⟩, q, rfl, hT, ?_⟩)
        have e : f a ≤ b c1 + f c2 := hd
        show f a = b c1 + f c2
        omega
    · exact Or.inl (by omega)
  · rintro s (⟨i, hi⟩ | ⟨T, z, rfl, hT, rfl⟩)
    · exact (hb i s).2 hi
    · exact (h.done T z x y hT trivial).2
  · rcases Nat.lt_or_ge (b a) infWeight with hlt | hge
    · obtain ⟨p, hp⟩ := hs.2 hlt
      rcases innerWalk_top hp with he | ⟨q, hq, p1, l1, p2, l2, w1, w2, hl⟩
      · exact Or.inr (Or.inl he)
      · obtain ⟨c1, c1t, c1h, c1l⟩ := (comp q y q p1 l1 (by omega) (Nat.le_refl _) (by omega) w1).2 (by omega)
        obtain ⟨c2, c2t, c2h, c2l⟩ := (comp q q x p2 l2 (Nat.le_refl _) (by omega) (by omega) w2).1 hq
        have hT : TriAt tail head ⟨c2, c1, a⟩ q x y := ⟨c2t, c2h, c1t, c1h, hx, hy⟩
        have hd := (h.done _ q x y hT trivial).2
        refine Or.inr (Or.inr ⟨⟨c2, c1, a⟩, q, rfl, hT, ?_⟩)
        have e : b a ≤ f c2 + b c1 := hd
        show b a = f c2 + b c1
        omega
    · exact Or.inl (by omega)

/-! ### Recomputing one arc -/

theorem recompute_spec {n : Nat} {rt rh : List Nat} {c : Cch} {U : List Bool} (h : CchOk n rt rh c U) {w : List Nat}
    (hwl : w.length = rt.length) (hw : WeightsOk w) {m : Metric} {f b : Nat → Nat} (hm : MetricIs m c.upTail.length f b)
    (hle : ∀ a, a < c.upTail.length → f a ≤ infWeight ∧ b a ≤ infWeight) {a x y : Nat} (hx : rd c.upTail a = some x)
    (hy : rd c.upHead a = some y) :
    ∃ m' v u, recompute c w m a = some m' ∧ MetricIs m' c.upTail.length (setAt f a v) (setAt b a u) ∧
      MinOf (CandF c.upTail c.upHead (listArcs rt rh w) f b a x y) v ∧
      MinOf (CandB c.upTail c.upHead (listArcs rt rh w) f b a x y) u := by
  have ha := rd_some_lt hx
  obtain ⟨F, eF, hF⟩ := hm.isF.wr ha infWeight
  obtain ⟨B, eB, hB⟩ := hm.isB.wr ha infWeight
  obtain ⟨m1, v0, u0, e1, hm1, hv0, hu0⟩ := extractArc_spec h hwl hw (MetricIs.mk' hF hB) hx hy
  rw [setAt_setAt, setAt_setAt] at hm1
  obtain ⟨l, el, hl⟩ := h.graph.lowerTriangles_spec hx hy
  unfold recompute
  simp only [eF, eB, e1, hx, hy, el, Option.bind_eq_bind, Option.bind_some]
  obtain ⟨m', e', v, u, g1, g2, g3, g4, g5, g6, g7⟩ := forEach_inv (f := fun m t => relax m t.1)
    (fun pre m => ∃ v u, MetricIs m c.upTail.length (setAt f a v) (setAt b a u) ∧ v ≤ v0 ∧ u ≤ u0 ∧
      (∀ t ∈ pre, v ≤ b t.1.bottom + f t.1.mid) ∧ (∀ t ∈ pre, u ≤ f t.1.bottom + b t.1.mid) ∧
      (v = v0 ∨ ∃ t ∈ pre, v = b t.1.bottom + f t.1.mid) ∧ (u = u0 ∨ ∃ t ∈ pre, u = f t.1.bottom + b t.1.mid)) l [] m1
    ⟨v0, u0, hm1, Nat.le_refl _, Nat.le_refl _, by simp, by simp, Or.inl rfl, Or.inl rfl⟩ (by
      rintro pre ⟨T, z⟩ post m hsplit _ ⟨v, u, g1, g2, g3, g4, g5, g6, g7⟩
      have hTl : (T, z) ∈ l := by rw [List.nil_append] at hsplit; rw [hsplit]; simp
      obtain ⟨rfl, hT⟩ := (hl T z).1 hTl
      have hzx := (h.graph.up.up z x ⟨_, hT.bt, hT.bh⟩).1
      have hb : T.bottom ≠ T.top := by
        intro e
        have := rd_congr_some hT.bt (by rw [e]; exact hx)
        omega
      have hmd : T.mid ≠ T.top := by
        intro e
        have := rd_congr_some hT.mt (by rw [e]; exact hx)
        omega
      have hle' : ∀ i, i < c.upTail.length → setAt f T.top v i ≤ infWeight ∧ setAt b T.top u i ≤ infWeight := by
        intro i hi
        have := hle i hi
        have := hv0.1
        have := hu0.1
        unfold setAt
        split
        · constructor <;> omega
        · assumption
      obtain ⟨m', e', hm'⟩ := relax_spec g1 hle' (T := T) (rd_some_lt hT.bt) (rd_some_lt hT.mt) (rd_some_lt hT.tt) hb
      rw [setAt_same, setAt_same, setAt_setAt, setAt_setAt, setAt_other _ _ hb, setAt_other _ _ hb, setAt_other _ _ hmd, setAt_other _ _ hmd] at hm'
      refine ⟨m', e', _, _, hm', by omega, by omega, ?_, ?_, ?_, ?_⟩
      · intro t ht
        rw [List.mem_append, List.mem_singleton] at ht
        rcases ht with ht | rfl
        · have := g4 t ht; omega
        · exact Nat.min_le_right _ _
      · intro t ht
        rw [List.mem_append, List.mem_singleton] at ht
        rcases ht with ht | rfl
        · have := g5 t ht; omega
        · exact Nat.min_le_right _ _
      · rcases Nat.le_total v (b T.bottom + f T.mid) with hc | hc
        · rw [Nat.min_eq_left hc]
          exact g6.imp id fun ⟨t, ht, e⟩ => ⟨t, by simp [ht], e⟩
        · rw [Nat.min_eq_right hc]
          exact Or.inr ⟨(T, z), by simp, rfl⟩
      · rcases Nat.le_total u (f T.bottom + b T.mid) with hc | hc
        · rw [Nat.min_eq_left hc]
          exact g7.imp id fun ⟨t, ht, e⟩ => ⟨t, by simp [ht], e⟩
        · rw [Nat.min_eq_right hc]
          exact Or.inr ⟨(T, z), by simp, rfl⟩)
  rw [List.nil_append] at g4 g5 g6 g7
  refine ⟨m', v, u, e', g1, ⟨by have := hv0.1; omega, ?_, ?_⟩, ⟨by have := hu0.1; omega, ?_, ?_⟩⟩
  · rintro s (⟨i, hi⟩ | ⟨T, z, hta, hT, rfl⟩)
    · have := hv0.2.1 i s hi; omega
    · exact g4 (T, z) ((hl T z).2 ⟨hta, hT⟩)
  · rcases g6 with e | ⟨⟨T, z⟩, ht, e⟩
    · rcases Nat.lt_or_ge v infWeight with hlt | hge
      · obtain ⟨i, hi⟩ := hv0.2.2 (by omega)
        exact Or.inr (Or.inl ⟨i, by rw [e]; exact hi⟩)
      · exact Or.inl (by have := hv0.1; omega)
    · obtain ⟨q1, q2⟩ := (hl T z).1 ht
      exact Or.inr (Or.inr ⟨T, z, q1, q2, e⟩)
  · rintro s (⟨i, hi⟩ | ⟨T, z, hta, hT, rfl⟩)
    · have := hu0.2.1 i s hi; omega
    · exact g5 (T, z) ((hl T z).2 ⟨hta, hT⟩)
  · rcases g7 with e | ⟨⟨T, z⟩, ht, e⟩
    · rcases Nat.lt_or_ge u infWeight with hlt | hge
      · obtain ⟨i, hi⟩ := hu0.2.2 (by omega)
        exact Or.inr (Or.inl ⟨i, by rw [e]; exact hi⟩)
      · exact Or.inl (by have := hu0.1; omega)
    · obtain ⟨q1, q2⟩ := (hl T z).1 ht
      exact Or.inr (Or.inr ⟨T, z, q1, q2, e⟩)

/-! ### Which arcs are enqueued -/

/-- A loop that pushes the upper arcs of those triangles of a list which satisfy `P`. -/
theorem pushLoop_tri {N : Nat} {g : IDSetMinQueue → Tri → Option IDSetMinQueue} {P : Tri → Prop} {l : List Tri}
    (htop : ∀ T ∈ l, T.top < N)
    (hyes : ∀ T ∈ l, P T → ∀ q, g q T = q.push T.top) (hno : ∀ T ∈ l, ¬ P T → ∀ q, g q T = some q)
    {q : IDSetMinQueue} {S : Nat → Bool} (hq : IDSetMinQueue.Rep q N S) :
    ∃ q' S', forEach l q g = some q' ∧ IDSetMinQueue.Rep q' N S' ∧ (∀ i, S i = true → S' i = true) ∧
      (∀ T ∈ l, P T → S' T.top = true) ∧ ∀ i, S' i = true → S i = true ∨ ∃ T ∈ l, i = T.top := by
  obtain ⟨q', e, S', h1, h2, h3, h4⟩ := forEach_inv (f := g)
    (fun pre q => ∃ S', IDSetMinQueue.Rep q N S' ∧ (∀ i, S i = true → S' i = true) ∧
      (∀ T ∈ pre, P T → S' T.top = true) ∧ ∀ i, S' i = true → S i = true ∨ ∃ T ∈ l, i = T.top) l [] q
    ⟨S, hq, fun i h => h, by simp, fun i h => Or.inl h⟩ (by
      rintro pre T post q hsplit _ ⟨S', h1, h2, h3, h4⟩
      have hTl : T ∈ l := by rw [List.nil_append] at hsplit; rw [hsplit]; simp
      by_cases hP : P T
      · obtain ⟨q', e, hr⟩ := h1.push (htop T hTl)
        refine ⟨q', by rw [hyes T hTl hP]; exact e, _, hr, fun i hi => by simp [h2 i hi], ?_, ?_⟩
        · intro T' hT' hP'
          rw [List.mem_append, List.mem_singleton] at hT'
          rcases hT' with hT' | rfl
          · simp [h3 T' hT' hP']
          · simp
        · intro i hi
          simp only [Bool.or_eq_true, decide_eq_true_eq] at hi
          rcases hi with hi | rfl
          · exact h4 i hi
          · exact Or.inr ⟨T, hTl, rfl⟩
      · refine ⟨q, hno T hTl hP q, S', h1, h2, ?_, h4⟩
        intro T' hT' hP'
        rw [List.mem_append, List.mem_singleton] at hT'
        rcases hT' with hT' | rfl
        · exact h3 T' hT' hP'
        · exact absurd hP' hP)
  rw [List.nil_append] at h3
  exact ⟨q', S', e, h1, h2, h3, h4⟩

/-- The condition of lines 1006-1009. -/
def MidCond (f b : Nat → Nat) (o : OldNew) (T : Tri) : Prop :=
  b T.bottom + o.oldF = f T.top ∨ f T.bottom + o.oldB = b T.top ∨ b T.bottom + o.newF < f T.top ∨ f T.bottom + o.newB < b T.top

/-- The condition of lines 1024-1027. -/
def UpperCond (f b : Nat → Nat) (o : OldNew) (T : Tri) : Prop :=
  f T.mid + o.oldB = f T.top ∨ b T.mid + o.oldF = b T.top ∨ f T.mid + o.newB < f T.top ∨ b T.mid + o.newF < b T.top

theorem enqueue_spec {n : Nat} {c : Cch} (g : c.GraphOk n) {m : Metric} {f b : Nat → Nat} (hm : MetricIs m c.upTail.length f b)
    (hle : ∀ a, a < c.upTail.length → f a ≤ infWeight ∧ b a ≤ infWeight) {a x y : Nat} (hx : rd c.upTail a = some x)
    (hy : rd c.upHead a = some y) {o : OldNew} (ho : o.oldF ≤ infWeight ∧ o.oldB ≤ infWeight ∧ o.newF ≤ infWeight ∧ o.newB ≤ infWeight)
    {q : IDSetMinQueue} {S : Nat → Bool} (hq : IDSetMinQueue.Rep q c.upTail.length S) :
    ∃ q' S', enqueue c m a o q = some q' ∧ IDSetMinQueue.Rep q' c.upTail.length S' ∧ (∀ i, S i = true → S' i = true) ∧
      (∀ i, S' i = true → S i = true ∨ a < i) ∧
      (o.oldF ≠ o.newF ∨ o.oldB ≠ o.newB →
        (∀ T z, T.mid = a → TriAt c.upTail c.upHead T x z y → MidCond f b o T → S' T.top = true) ∧
        ∀ T z, T.bottom = a → TriAt c.upTail c.upHead T x y z → UpperCond f b o T → S' T.top = true) := by
  have hinf : infWeight = 2147483647 := rfl
  unfold enqueue
  by_cases hch : o.oldF ≠ o.newF ∨ o.oldB ≠ o.newB
  · rw [if_pos hch]
    have add_ok : ∀ i, i < c.upTail.length → ∀ v, v ≤ infWeight → add32 (f i) v = f i + v ∧ add32 (b i) v = b i + v := by
      intro i hi v hv
      have := hle i hi
      unfold add32 u32
      constructor <;> omega
    have gt : ∀ {T : Tri} {bn mn tn : Nat}, TriAt c.upTail c.upHead T bn mn tn → bn = x → a < T.top := by
      intro T bn mn tn hT e
      subst e
      have h1 := (g.up.up _ _ ⟨_, hT.bt, hT.bh⟩).1
      have k1 := ((cLt_range g.up.sorted.pairwise).1 hx).2
      have k2 := ((cLt_range g.up.sorted.pairwise).1 hT.tt).1
      have k3 := cLt_mono c.upTail (show bn + 1 ≤ mn by omega)
      omega
    obtain ⟨l1, el1, hl1⟩ := g.intermediateTriangles_spec hx hy
    obtain ⟨l2, el2, hl2⟩ := upperTriangles_spec g.up hx hy
    obtain ⟨q1, S1, e1, r1, s1, p1, t1⟩ := pushLoop_tri (g := pushMid m a o) (P := MidCond f b o) (l := l1)
      (fun T hT => by obtain ⟨_, z, hT'⟩ := (hl1 T).1 hT; exact rd_some_lt hT'.tt)
      (fun T hT hP q => by
        obtain ⟨rfl, z, hT'⟩ := (hl1 T).1 hT
        have k1 := rd_some_lt hT'.bt
        have k2 := rd_some_lt hT'.tt
        unfold pushMid
        simp only [beq_self_eq_true, check_true, hm.fwd _ k1, hm.bwd _ k1, hm.fwd _ k2, hm.bwd _ k2, Option.bind_eq_bind, Option.bind_some,
          (add_ok _ k1 _ ho.1).2, (add_ok _ k1 _ ho.2.1).1, (add_ok _ k1 _ ho.2.2.1).2, (add_ok _ k1 _ ho.2.2.2).1]
        exact if_pos hP)
      (fun T hT hP q => by
        obtain ⟨rfl, z, hT'⟩ := (hl1 T).1 hT
        have k1 := rd_some_lt hT'.bt
        have k2 := rd_some_lt hT'.tt
        unfold pushMid
        simp only [beq_self_eq_true, check_true, hm.fwd _ k1, hm.bwd _ k1, hm.fwd _ k2, hm.bwd _ k2, Option.bind_eq_bind, Option.bind_some,
          (add_ok _ k1 _ ho.1).2, (add_ok _ k1 _ ho.2.1).1, (add_ok _ k1 _ ho.2.2.1).2, (add_ok _ k1 _ ho.2.2.2).1]
        exact if_neg hP) hq
    obtain ⟨q2, S2, e2, r2, s2, p2, t2⟩ := pushLoop_tri (g := pushUpper m a o) (P := UpperCond f b o) (l := l2)
      (fun T hT => by obtain ⟨_, z, hT'⟩ := (hl2 T).1 hT; exact rd_some_lt hT'.tt)
      (fun T hT hP q => by
        obtain ⟨rfl, z, hT'⟩ := (hl2 T).1 hT
        have k1 := rd_some_lt hT'.mt
        have k2 := rd_some_lt hT'.tt
        unfold pushUpper
        simp only [beq_self_eq_true, check_true, hm.fwd _ k1, hm.bwd _ k1, hm.fwd _ k2, hm.bwd _ k2, Option.bind_eq_bind, Option.bind_some,
          (add_ok _ k1 _ ho.1).2, (add_ok _ k1 _ ho.2.1).1, (add_ok _ k1 _ ho.2.2.1).2, (add_ok _ k1 _ ho.2.2.2).1]
        exact if_pos hP)
      (fun T hT hP q => by
        obtain ⟨rfl, z, hT'⟩ := (hl2 T).1 hT
        have k1 := rd_some_lt hT'.mt
        have k2 := rd_some_lt hT'.tt
        unfold pushUpper
        simp only [beq_self_eq_true, check_true, hm.fwd _ k1, hm.bwd _ k1, hm.fwd _ k2, hm.bwd _ k2, Option.bind_eq_bind, Option.bind_some,
          (add_ok _ k1 _ ho.1).2, (add_ok _ k1 _ ho.2.1).1, (add_ok _ k1 _ ho.2.2.1).2, (add_ok _ k1 _ ho.2.2.2).1]
        exact if_neg hP) r1
    simp only [el1, el2, e1, e2, Option.bind_eq_bind, Option.bind_some]
    refine ⟨q2, S2, rfl, r2, fun i hi => s2 i (s1 i hi), ?_, fun _ => ⟨?_, ?_⟩⟩
    · intro i hi
      rcases t2 i hi with h | ⟨T, hT, rfl⟩
      · rcases t1 i h with h | ⟨T, hT, rfl⟩
        · exact Or.inl h
        · obtain ⟨_, z, hT'⟩ := (hl1 T).1 hT
          exact Or.inr (gt hT' rfl)
      · obtain ⟨_, z, hT'⟩ := (hl2 T).1 hT
        exact Or.inr (gt hT' rfl)
    · intro T z hma hT hP
      exact s2 _ (p1 T ((hl1 T).2 ⟨hma, z, hT⟩) hP)
    · intro T z hba hT hP
      exact p2 T ((hl2 T).2 ⟨hba, z, hT⟩) hP
  · rw [if_neg hch]
    exact ⟨q, S, rfl, hq, fun i h => h, fun i h => Or.inl h, fun h => absurd h hch⟩

/-- One arc was recomputed and the arcs in `S'` enqueued: the weights of the other arcs remain correct. -/
theorem cons_step {n : Nat} {fo tail head : List Nat} (up : UpOk n fo head tail) {A : ArcRel} {f b : Nat → Nat} {a x y v u : Nat}
    (hx : rd tail a = some x) (hy : rd head a = some y)
    (hv : MinOf (CandF tail head A f b a x y) v) (hu : MinOf (CandB tail head A f b a x y) u) {S' : Nat → Bool}
    (hS : f a ≠ v ∨ b a ≠ u →
        (∀ T z, T.mid = a → TriAt tail head T x z y → MidCond (setAt f a v) (setAt b a u) ⟨f a, b a, v, u⟩ T → S' T.top = true) ∧
        ∀ T z, T.bottom = a → TriAt tail head T x y z → UpperCond (setAt f a v) (setAt b a u) ⟨f a, b a, v, u⟩ T → S' T.top = true)
    {t : Nat} (ht : S' t = false) (hold : t = a ∨ Cons tail head A f b t) :
    Cons tail head A (setAt f a v) (setAt b a u) t := by
  have hup : ∀ {T : Tri} {bn mn tn : Nat}, TriAt tail head T bn mn tn → bn < mn ∧ mn < tn := fun hT =>
    ⟨(up.up _ _ ⟨_, hT.bt, hT.bh⟩).1, (up.up _ _ ⟨_, hT.tt, hT.th⟩).1⟩
  have lowne : ∀ {T : Tri} {bn mn tn : Nat}, TriAt tail head T bn mn tn → T.bottom ≠ T.top ∧ T.mid ≠ T.top ∧ T.bottom ≠ T.mid := by
    intro T bn mn tn hT
    have hh := hup hT
    refine ⟨fun e => ?_, fun e => ?_, fun e => ?_⟩
    · have := rd_congr_some hT.bt (by rw [e]; exact hT.tt); omega
    · have := rd_congr_some hT.mt (by rw [e]; exact hT.tt); omega
    · have := rd_congr_some hT.bh (by rw [e]; exact hT.mh); omega
  by_cases hta : t = a
  · subst hta
    intro x' y' hx' hy'
    cases (hx.symm.trans hx' : some x = some x')
    cases (hy.symm.trans hy' : some y = some y')
    rw [setAt_same, setAt_same]
    constructor
    · refine hv.congr ?_
      intro s
      unfold CandF
      constructor
      · rintro (h | ⟨T, z, rfl, hT, e⟩)
        · exact Or.inl h
        · obtain ⟨n1, n2, _⟩ := lowne hT
          exact Or.inr ⟨T, z, rfl, hT, by rw [setAt_other _ _ n1, setAt_other _ _ n2]; exact e⟩
      · rintro (h | ⟨T, z, rfl, hT, e⟩)
        · exact Or.inl h
        · obtain ⟨n1, n2, _⟩ := lowne hT
          rw [setAt_other _ _ n1, setAt_other _ _ n2] at e
          exact Or.inr ⟨T, z, rfl, hT, e⟩
    · refine hu.congr ?_
      intro s
      unfold CandB
      constructor
      · rintro (h | ⟨T, z, rfl, hT, e⟩)
        · exact Or.inl h
        · obtain ⟨n1, n2, _⟩ := lowne hT
          exact Or.inr ⟨T, z, rfl, hT, by rw [setAt_other _ _ n1, setAt_other _ _ n2]; exact e⟩
      · rintro (h | ⟨T, z, rfl, hT, e⟩)
        · exact Or.inl h
        · obtain ⟨n1, n2, _⟩ := lowne hT
          rw [setAt_other _ _ n1, setAt_other _ _ n2] at e
          exact Or.inr ⟨T, z, rfl, hT, e⟩
  · have hc := hold.resolve_left hta
    by_cases hch : f a ≠ v ∨ b a ≠ u
    · obtain ⟨hS1, hS2⟩ := hS hch
      -- what the negated conditions say about the triangles below `t`
      have nmid : ∀ T x' y' z', T.top = t → TriAt tail head T z' x' y' → T.mid = a →
          T.bottom ≠ a ∧ b T.bottom + f a ≠ f t ∧ f T.bottom + b a ≠ b t ∧ f t ≤ b T.bottom + v ∧ b t ≤ f T.bottom + u := by
        intro T x' y' z' htop hT hmid
        have hba : T.bottom ≠ a := by rw [← hmid]; exact (lowne hT).2.2
        have e1 : z' = x := rd_congr_some hT.mt (by rw [hmid]; exact hx)
        have e2 : y' = y := rd_congr_some hT.mh (by rw [hmid]; exact hy)
        subst e1; subst e2
        have hn : ¬ MidCond (setAt f a v) (setAt b a u) ⟨f a, b a, v, u⟩ T := by
          intro hP
          have := hS1 T x' hmid hT hP
          rw [htop, ht] at this; cases this
        unfold MidCond at hn
        rw [htop, setAt_other _ _ hba, setAt_other _ _ hba, setAt_other _ _ hta, setAt_other _ _ hta] at hn
        refine ⟨hba, fun e => hn (Or.inl e), fun e => hn (Or.inr (Or.inl e)), ?_, ?_⟩
        · exact Nat.le_of_not_lt fun e => hn (Or.inr (Or.inr (Or.inl e)))
        · exact Nat.le_of_not_lt fun e => hn (Or.inr (Or.inr (Or.inr e)))
      have nbot : ∀ T x' y' z', T.top = t → TriAt tail head T z' x' y' → T.bottom = a →
          T.mid ≠ a ∧ b a + f T.mid ≠ f t ∧ f a + b T.mid ≠ b t ∧ f t ≤ u + f T.mid ∧ b t ≤ v + b T.mid := by
        intro T x' y' z' htop hT hbot
        have hma : T.mid ≠ a := by rw [← hbot]; exact (lowne hT).2.2.symm
        have e1 : z' = x := rd_congr_some hT.bt (by rw [hbot]; exact hx)
        have e2 : x' = y := rd_congr_some hT.bh (by rw [hbot]; exact hy)
        subst e1; subst e2
        have hn : ¬ UpperCond (setAt f a v) (setAt b a u) ⟨f a, b a, v, u⟩ T := by
          intro hP
          have := hS2 T y' hbot hT hP
          rw [htop, ht] at this; cases this
        unfold UpperCond at hn
        rw [htop, setAt_other _ _ hma, setAt_other _ _ hma, setAt_other _ _ hta, setAt_other _ _ hta] at hn
        refine ⟨hma, fun e => hn (Or.inl (by show f T.mid + b a = f t; omega)),
          fun e => hn (Or.inr (Or.inl (by show b T.mid + f a = b t; omega))), ?_, ?_⟩
        · exact Nat.le_of_not_lt fun e => hn (Or.inr (Or.inr (Or.inl (by show f T.mid + u < f t; omega))))
        · exact Nat.le_of_not_lt fun e => hn (Or.inr (Or.inr (Or.inr (by show b T.mid + v < b t; omega))))
      intro x' y' hx' hy'
      obtain ⟨⟨f1, f2, f3⟩, ⟨b1, b2, b3⟩⟩ := hc x' y' hx' hy'
      rw [setAt_other _ _ hta, setAt_other _ _ hta]
      refine ⟨⟨f1, ?_, ?_⟩, ⟨b1, ?_, ?_⟩⟩
      · rintro s (hi | ⟨T, z, htop, hT, rfl⟩)
        · exact f2 s (Or.inl hi)
        · by_cases hmid : T.mid = a
          · obtain ⟨n1, _, _, n4, _⟩ := nmid T x' y' z htop hT hmid
            rw [hmid, setAt_same, setAt_other _ _ n1]; exact n4
          · by_cases hbot : T.bottom = a
            · obtain ⟨n1, _, _, n4, _⟩ := nbot T x' y' z htop hT hbot
              rw [hbot, setAt_same, setAt_other _ _ n1]; exact n4
            · rw [setAt_other _ _ hmid, setAt_other _ _ hbot]
              exact f2 _ (Or.inr ⟨T, z, htop, hT, rfl⟩)
      · rcases f3 with e | hi | ⟨T, z, htop, hT, e⟩
        · exact Or.inl e
        · exact Or.inr (Or.inl hi)
        · refine Or.inr (Or.inr ⟨T, z, htop, hT, ?_⟩)
          have hmid : T.mid ≠ a := fun hmid => (nmid T x' y' z htop hT hmid).2.1 (by rw [← hmid]; exact e.symm)
          have hbot : T.bottom ≠ a := fun hbot => (nbot T x' y' z htop hT hbot).2.1 (by rw [← hbot]; exact e.symm)
          rw [setAt_other _ _ hmid, setAt_other _ _ hbot]; exact e
      · rintro s (hi | ⟨T, z, htop, hT, rfl⟩)
        · exact b2 s (Or.inl hi)
        · by_cases hmid : T.mid = a
          · obtain ⟨n1, _, _, _, n5⟩ := nmid T x' y' z htop hT hmid
            rw [hmid, setAt_same, setAt_other _ _ n1]; exact n5
          · by_cases hbot : T.bottom = a
            · obtain ⟨n1, _, _, _, n5⟩ := nbot T x' y' z htop hT hbot
              rw [hbot, setAt_same, setAt_other _ _ n1]; exact n5
            · rw [setAt_other _ _ hmid, setAt_other _ _ hbot]
              exact b2 _ (Or.inr ⟨T, z, htop, hT, rfl⟩)
      · rcases b3 with e | hi | ⟨T, z, htop, hT, e⟩
        · exact Or.inl e
        · exact Or.inr (Or.inl hi)
        · refine Or.inr (Or.inr ⟨T, z, htop, hT, ?_⟩)
          have hmid : T.mid ≠ a := fun hmid => (nmid T x' y' z htop hT hmid).2.2.1 (by rw [← hmid]; exact e.symm)
          have hbot : T.bottom ≠ a := fun hbot => (nbot T x' y' z htop hT hbot).2.2.1 (by rw [← hbot]; exact e.symm)
          rw [setAt_other _ _ hmid, setAt_other _ _ hbot]; exact e
    · have e1 : setAt f a v = f := by
        have : v = f a := by by_contra hne; exact hch (Or.inl (Ne.symm hne))
        rw [this, setAt_self]
      have e2 : setAt b a u = b := by
        have : u = b a := by by_contra hne; exact hch (Or.inr (Ne.symm hne))
        rw [this, setAt_self]
      rw [e1, e2]; exact hc

/-! ### The loop -/

theorem partialLoop_spec {n : Nat} {rt rh : List Nat} {c : Cch} {U : List Bool} (h : CchOk n rt rh c U) {w : List Nat}
    (hwl : w.length = rt.length) (hw : WeightsOk w) :
    ∀ (fuel k : Nat) (q : IDSetMinQueue) (m : Metric) (S : Nat → Bool) (f b : Nat → Nat), c.upTail.length - k < fuel →
      IDSetMinQueue.Rep q c.upTail.length S → (∀ i, S i = true → k ≤ i) → MetricIs m c.upTail.length f b →
      (∀ a, a < c.upTail.length → f a ≤ infWeight ∧ b a ≤ infWeight) →
      (∀ a, a < c.upTail.length → S a = false → Cons c.upTail c.upHead (listArcs rt rh w) f b a) →
      ∃ q' m' f' b', partialLoop c w fuel q m = some (q', m') ∧ IDSetMinQueue.Rep q' c.upTail.length (fun _ => false) ∧
        MetricIs m' c.upTail.length f' b' ∧
        ∀ a, a < c.upTail.length → Cons c.upTail c.upHead (listArcs rt rh w) f' b' a := by
  have hlen := h.graph.up.sorted.1
  intro fuel
  induction fuel with
  | zero => intro k q m S f b hf; exact absurd hf (Nat.not_lt_zero _)
  | succ fuel ih =>
    intro k q m S f b hf hq hk hm hle hc
    unfold partialLoop
    by_cases hemp : q.empty = true
    · have hS := hq.empty_iff.1 hemp
      simp only [hemp, Bool.not_true, Bool.false_eq_true, if_false]
      have e : S = fun _ => false := funext hS
      rw [e] at hq
      exact ⟨q, m, f, b, rfl, hq, hm, fun a ha => hc a ha (hS a)⟩
    · have hemp' : q.empty = false := by simpa using hemp
      simp only [hemp', Bool.not_false, if_true]
      have hne : ∃ i, S i = true := by
        by_contra hno
        apply hemp
        rw [hq.empty_iff]
        intro i
        by_contra hi
        exact hno ⟨i, by simpa using hi⟩
      obtain ⟨q1, a, e1, hSa, hmin, hq1⟩ := hq.pop hne
      have haN : a < c.upTail.length := hq.sub a hSa
      obtain ⟨x, hx⟩ := rd_isSome (v := c.upTail) haN
      obtain ⟨y, hy⟩ := rd_isSome (v := c.upHead) (i := a) (by omega)
      obtain ⟨m1, v, u, e2, hm1, hv, hu⟩ := recompute_spec h hwl hw hm hle hx hy
      simp only [e1, hm.fwd a haN, hm.bwd a haN, e2, hm1.fwd a haN, hm1.bwd a haN, setAt_same, Option.bind_eq_bind, Option.bind_some]
      have hle1 : ∀ i, i < c.upTail.length → setAt f a v i ≤ infWeight ∧ setAt b a u i ≤ infWeight := by
        intro i hi
        have := hle i hi
        have := hv.1
        have := hu.1
        unfold setAt
        split
        · constructor <;> assumption
        · assumption
      obtain ⟨q2, S2, e3, hq2, s1, s2, s3⟩ := enqueue_spec h.graph hm1 hle1 hx hy
        (o := ⟨f a, b a, v, u⟩) ⟨(hle a haN).1, (hle a haN).2, hv.1, hu.1⟩ hq1
      rw [e3]
      simp only [Option.bind_some]
      apply ih (a + 1) q2 m1 S2 (setAt f a v) (setAt b a u) (by have := hk a hSa; omega) hq2 ?_ hm1 hle1 ?_
      · intro i hi
        rcases s2 i hi with hi | hi
        · simp only [Bool.and_eq_true, decide_eq_true_eq] at hi
          have := hmin i hi.1
          have := hi.2
          omega
        · omega
      · intro t htN ht
        refine cons_step h.graph.up hx hy hv hu s3 ht ?_
        by_cases hta : t = a
        · exact Or.inl hta
        · refine Or.inr (hc t htN ?_)
          by_contra hSt
          have hSt' : S t = true := by simpa using hSt
          have := s1 t (by simp [hSt', hta])
          rw [ht] at this; cases this

/-- Partial customization after some input weights changed. -/
theorem partialCustomize_spec {n : Nat} {rt rh : List Nat} {c : Cch} {U : List Bool} (h : CchOk n rt rh c U) {w w' : List Nat}
    (hwl : w.length = rt.length) (hwl' : w'.length = rt.length) (hw' : WeightsOk w')
    {m : Metric} {f b : Nat → Nat} (hm : MetricIs m c.upTail.length f b)
    (hc : CusInv c.upTail c.upHead (listArcs rt rh w) (fun _ => True) f b) {q : IDSetMinQueue} {S : Nat → Bool}
    (hq : IDSetMinQueue.Rep q c.upTail.length S)
    (hS : ∀ i a, rd w i ≠ rd w' i → rd c.inputToCch i = some a → a ≠ invalidId → S a = true) :
    ∃ q' m' f' b', partialCustomize c w' q m = some (q', m') ∧ IDSetMinQueue.Rep q' c.upTail.length (fun _ => false) ∧
      MetricIs m' c.upTail.length f' b' ∧ CusInv c.upTail c.upHead (listArcs rt rh w') (fun _ => True) f' b' := by
  have hlen := h.graph.up.sorted.1
  have hcons := cons_of_cinv h.graph.up hc (h.keep' hwl)
  obtain ⟨q', m', f', b', e, hq', hm', hc'⟩ := partialLoop_spec h hwl' hw' (c.cchArcCount + 1) 0 q m S f b
    (by show c.upTail.length - 0 < c.upHead.length + 1; omega) hq (fun i _ => Nat.zero_le _) hm hc.le (by
      intro a ha hSa x y hx hy
      have hne : a ≠ invalidId := by have := h.small; omega
      have same : ∀ i s, (listArcs rt rh w i x y s ↔ listArcs rt rh w' i x y s) ∧ (listArcs rt rh w i y x s ↔ listArcs rt rh w' i y x s) := by
        intro i s
        have key : rd c.inputToCch i = some a → rd w i = rd w' i := by
          intro hi
          by_contra hd
          have := hS i a hd hi hne
          rw [hSa] at this; cases this
        have io := h.inputOf hx hy i
        constructor
        · constructor
          · rintro ⟨q1, q2, q3⟩
            exact ⟨q1, q2, by rw [← q3]; exact (key (io.1.2 ⟨q1, q2⟩).1).symm⟩
          · rintro ⟨q1, q2, q3⟩
            exact ⟨q1, q2, by rw [← q3]; exact key (io.1.2 ⟨q1, q2⟩).1⟩
        · constructor
          · rintro ⟨q1, q2, q3⟩
            exact ⟨q1, q2, by rw [← q3]; exact (key (io.2.2 ⟨q1, q2⟩).1).symm⟩
          · rintro ⟨q1, q2, q3⟩
            exact ⟨q1, q2, by rw [← q3]; exact key (io.2.2 ⟨q1, q2⟩).1⟩
      obtain ⟨c1, c2⟩ := hcons a x y hx hy
      refine ⟨c1.congr ?_, c2.congr ?_⟩
      · intro s
        unfold CandF
        constructor
        · exact Or.imp (fun ⟨i, hi⟩ => ⟨i, (same i s).1.1 hi⟩) id
        · exact Or.imp (fun ⟨i, hi⟩ => ⟨i, (same i s).1.2 hi⟩) id
      · intro s
        unfold CandB
        constructor
        · exact Or.imp (fun ⟨i, hi⟩ => ⟨i, (same i s).2.1 hi⟩) id
        · exact Or.imp (fun ⟨i, hi⟩ => ⟨i, (same i s).2.2 hi⟩) id)
  have hc2 := cinv_of_cons h.graph.up hc'
  refine ⟨q', m', f', b', ?_, hq', hm', hc2⟩
  unfold partialCustomize
  simp only [e, verifyAll_spec h.graph hm' hc2, Option.bind_eq_bind, Option.bind_some]

theorem updateArcs_spec {n : Nat} {rt rh : List Nat} {c : Cch} {U : List Bool} (h : CchOk n rt rh c U) {is : List Nat}
    (his : ∀ i ∈ is, i < rt.length) {q : IDSetMinQueue} {S : Nat → Bool} (hq : IDSetMinQueue.Rep q c.upTail.length S) :
    ∃ q' S', forEach is q (updateArc c) = some q' ∧ IDSetMinQueue.Rep q' c.upTail.length S' ∧
      ∀ i ∈ is, ∀ a, rd c.inputToCch i = some a → a ≠ invalidId → S' a = true := by
  have hl := h.map.len
  obtain ⟨q', e, S', h1, h2⟩ := forEach_inv (f := updateArc c)
    (fun pre q => ∃ S', IDSetMinQueue.Rep q c.upTail.length S' ∧
      ∀ i ∈ pre, ∀ a, rd c.inputToCch i = some a → a ≠ invalidId → S' a = true) is [] q ⟨S, hq, by simp⟩ (by
      rintro pre i post q hsplit _ ⟨S', h1, h2⟩
      have hil : i ∈ is := by rw [List.nil_append] at hsplit; rw [hsplit]; simp
      obtain ⟨a, ha⟩ := rd_isSome (v := c.inputToCch) (i := i) (by have := his i hil; omega)
      unfold updateArc
      simp only [ha, Option.bind_eq_bind, Option.bind_some]
      by_cases hne : a ≠ invalidId
      · rw [if_pos hne]
        obtain ⟨q', e, hr⟩ := h1.push (id := a) (h.map.lt ha hne).1
        refine ⟨q', e, _, hr, ?_⟩
        intro j hj a' ha' hne'
        rw [List.mem_append, List.mem_singleton] at hj
        rcases hj with hj | rfl
        · simp [h2 j hj a' ha' hne']
        · cases (ha.symm.trans ha' : some a = some a')
          simp
      · rw [if_neg hne]
        refine ⟨q, rfl, S', h1, ?_⟩
        intro j hj a' ha' hne'
        rw [List.mem_append, List.mem_singleton] at hj
        rcases hj with hj | rfl
        · exact h2 j hj a' ha' hne'
        · cases (ha.symm.trans ha' : some a = some a')
          exact absurd hne' hne)
  rw [List.nil_append] at h2
  exact ⟨q', S', e, h1, h2⟩

end RK
